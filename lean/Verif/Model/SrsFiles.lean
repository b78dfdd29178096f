import Verif.Model.Files
import Verif.Model.Paths
import Verif.Model.Crc
/-
What `srs` does with files when it rebuilds a sample: /repo/resample/srs.py:415-626 with
`create_temp_file_name` and `replace_result` of /repo/rescene/utility.py, on POSIX.  The
contents come from the rebuild functions of the formats; here they are an argument.
-/
namespace Rescene

/-- `posixpath.dirname`: up to the last "/", without trailing slashes unless there is nothing
else. -/
def dirname (p : Str) : Str :=
  let head := p.take (p.length - (basename p).length)
  if head.all (· == 0x2F) then head
  else (head.reverse.dropWhile (· == 0x2F)).reverse

/-- utility.py:451-466 `create_temp_file_name`: `tempfile.mktemp` with this random part. -/
def tempName (rnd out : Str) : Str :=
  posixJoin2 (dirname out) (basename out ++ ([0x2D] ++ (rnd ++ str ".tmp")))

/-- One call of `rebuild_sample`: the random part of the name of the file it writes, and what it
writes; an exception ends the writing. -/
structure Attempt where
  rnd : Str
  chunks : List (Res Bytes)

/-- A run of `srs` that got to step 5, srs.py:494.  `loc` says which file a path names (working
directory and `normpath(realpath())`; symbolic links are not modelled). -/
structure SrsJob where
  outFolder : Str          -- option -o, or "."
  name : Str               -- srs_data.name
  crc : Nat                -- srs_data.crc32
  keep : Bool              -- option -k
  music : Bool             -- is_music
  movie : Path             -- the main file
  srs : Path               -- the SRS file
  loc : Path → Path
  allowed : Bool           -- answer of can_overwrite
  first : Attempt          -- srs.py:514-516
  retries : List Attempt   -- srs.py:519-578: with other offsets (Matroska only)

/-- srs.py:495. -/
def SrsJob.result (j : SrsJob) : Path := posixJoin2 j.outFolder j.name

/-- srs.py:514, 532. -/
def SrsJob.tmp (j : SrsJob) (a : Attempt) : Path := tempName a.rnd j.result

/-- The contents written when nothing was raised. -/
def Attempt.content (a : Attempt) : Res Bytes := do
  let l ← a.chunks.mapM id
  return l.flatten

/-- srs.py:517, 535, 586: the CRC of what was written is the one in the SRS.  The rebuild
functions return the CRC of what they write (`stream_result_sound`, `flac_result_sound`,
`mp3_result_sound`). -/
def SrsJob.good (j : SrsJob) (a : Attempt) : Bool :=
  match a.content with
  | .ok d => (crc32 d 0).toNat == j.crc
  | .error _ => false

def raise (e : Err) : Prog := .done (.error e)

/-- utility.py:468-515 `replace_result(src, dest)`, then `k`.  An `OSError` of the deletion is
caught; deleting is skipped when there is no file.  Simplified: `src` exists, as it was written
before. -/
def replaceResult (j : SrsJob) (src dest : Path) (k : Prog) : Prog :=
  if dest.isPrefixOf src then
    let put := Prog.act (.rename (j.loc src) (j.loc dest)) k
      (fun e => if e = .envError then .act (.unlink (j.loc src)) (raise e) raise else raise e)
    .act (.unlink (j.loc dest)) put (fun e => if e = .envError then put else raise e)
  else raise .assertError

/-- srs.py:586-626: the end, after the attempt `a`. -/
def srsFinish (j : SrsJob) (a : Attempt) : Prog :=
  if j.good a then replaceResult j (j.tmp a) j.result (.done (.ok ()))
  else if j.keep then
    if j.music = false then replaceResult j (j.tmp a) j.result (raise .other)
    else if j.loc j.movie = j.loc j.result then raise .other
    else replaceResult j (j.tmp a) j.result (raise .other)
  else
    if j.music = false then
      replaceResult j (j.tmp a) j.result (.act (.unlink (j.loc j.result)) (raise .other) raise)
    else if j.loc j.movie = j.loc j.result then raise .other
    else replaceResult j (j.tmp a) j.result (.act (.unlink (j.loc j.result)) (raise .other) raise)

/-- `rebuild_sample(srs_data, tracks, attachments, srs, out_file)`, then `k`.  When writing fails
the file is closed and stays. -/
def srsWrite (j : SrsJob) (a : Attempt) (k : Prog) : Prog :=
  .act (.create (j.loc (j.tmp a)))
    (writeChunks (j.loc j.srs) (j.loc (j.tmp a)) a.chunks (.act (.close (j.loc (j.tmp a))) k raise) raise)
    raise

/-- srs.py:528-562: the attempts with other offsets until one is good; `prev` is `v.out_file`. -/
def srsRetry (j : SrsJob) : Option Attempt → List Attempt → Prog
  | some p, [] => srsFinish j p
  | none, [] => raise .attrError
  | prev, a :: rest =>
    let go := srsWrite j a (if j.good a then srsFinish j a else srsRetry j (some a) rest)
    match prev with
    | some p => .act (.unlink (j.loc (j.tmp p))) go raise
    | none => go

/-- srs.py:494-626. -/
def srsFiles (j : SrsJob) : Prog :=
  if j.allowed then
    srsWrite j j.first
      (if j.good j.first then srsFinish j j.first
       else if j.retries = [] then srsFinish j j.first
       else srsRetry j none j.retries)
  else raise .other

end Rescene
