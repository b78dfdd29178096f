import Verif.Model.SrsExit
import Verif.Model.Extract
import Verif.Model.SrsFiles
import Verif.Model.Inputs
/-
/repo/bin/retag.py: the tags of the tracks of a music release are restored with the SRS files in its SRR.
-/
namespace Rescene

/-- What retag.py sees besides the files: folders, the names in a folder (they may depend on the files), the current folder, the
answer to questions about overwriting, and `srs track.srs music -o folder` (resample/srs.py `main` with no_exit) on the files. -/
structure TagWorld where
  dig : Nat → Bool
  lower : Str → Str
  cwd : Str
  isDir : Str → Bool
  listdir : FS → Str → Res (List Str)
  ask : Path → Bool
  srs : Path → Path → Path → FS → FS × MainEnd

/-- `os.path.isfile`. -/
def isFileIn (fs : FS) (p : Path) : Bool := (fs p).isSome

/-- `os.path.exists`. -/
def TagWorld.existing (w : TagWorld) (fs : FS) (p : Path) : Bool := isFileIn fs p || w.isDir p

/-- retag.py:165-180: the loop of `join_fix_case`, with the part of the path that is done. -/
def fixCaseLoop (w : TagWorld) (fs : FS) (path : Path) : List Str → Res Path
  | [] => .ok path
  | p :: rest =>
    if w.existing fs (posixJoin2 path p) then fixCaseLoop w fs (posixJoin2 path p) rest
    else do
      let listing ← w.listdir fs path
      match listing.find? fun l => w.lower l == w.lower p with
      | some l => fixCaseLoop w fs (posixJoin2 path l) rest
      | none => return []

/-- retag.py:156-182 `join_fix_case`.  An empty string when there is no such file. -/
def joinFixCase (w : TagWorld) (fs : FS) (base : Path) (parts : List Str) : Res Path :=
  if w.existing fs (posixJoin base parts) then .ok (posixJoin base parts) else fixCaseLoop w fs base parts

/-- retag.py:146-154 `get_srs_info`: the name of the track, `none` when it is no music. -/
def srsInfo (dig : Nat → Bool) (lower : Str → Str) (path : Path) (srs : Bytes) : Res (Option Str) := do
  match ← MediaFile.kind dig lower ⟨path, srs, none⟩ with
  | .flac => do
    let (f, _) ← flacLoadSrs srs
    return some f.name
  | .mp3 => do
    let (f, _) ← mp3LoadSrs srs
    return some f.name
  | _ => return none

/-- What became of one SRS. -/
inductive TagStep where
  | fixed (music : Path)           -- `srs` was run with this file and succeeded
  | failed (music : Option Path)   -- it failed, or there is no such file
  | skipped                        -- no music
  | kept                           -- the SRS was not extracted
  deriving DecidableEq, Repr

/-- retag.py:118-130: the file with the music: beside the others, or in the folder that the SRS is in. -/
def findMusic (w : TagWorld) (fs : FS) (inDir sub name : Str) : Res (Option Path) := do
  let m ← joinFixCase w fs inDir [name]
  if isFileIn fs m then return some m
  else do
    let m ← joinFixCase w fs inDir (splitOn 0x2F sub ++ [name])
    if isFileIn fs m then return some m else return none

/-- retag.py:99-144 `fix_tagging`, and which handler in `fix_tracks` (retag.py:80-92) is used: all exceptions but KeyboardInterrupt
are counted as failures. -/
def fixTagging (w : TagWorld) (srs outDir inDir : Path) (fs : FS) : FS × Res TagStep :=
  match fs srs with
  | none => (fs, .ok (.failed none))
  | some content =>
    match srsInfo w.dig w.lower srs content with
    | .error _ => (fs, .ok (.failed none))
    | .ok none => (fs.set srs none, .ok .skipped)
    | .ok (some name) =>
      match relpath w.cwd srs outDir with
      | .error _ => (fs, .ok (.failed none))
      | .ok rel =>
        match findMusic w fs inDir (dirname rel) name with
        | .error _ => (fs, .ok (.failed none))
        | .ok none => (fs, .ok (.failed none))
        | .ok (some m) =>
          match w.srs srs m (posixJoin2 outDir (dirname rel)) fs with
          | (fs, .returned) => (fs, .ok (.fixed m))
          | (fs, .raised .keyboard _) => (fs, .error .keyboard)
          | (fs, _) => (fs, .ok (.failed (some m)))

/-- `os.remove`. -/
def removeFile (fs : FS) (p : Path) : FS × Res Unit :=
  if isFileIn fs p then (fs.set p none, .ok ()) else (fs, .error .envError)

/-- retag.py:70-92: the loop over the SRS files.  The result has a line for each. -/
def tagLoop (w : TagWorld) (srr outDir inDir : Path) : List Str → FS → FS × Res (List (Str × TagStep))
  | [], fs => (fs, .ok [])
  | n :: rest, fs =>
    match extractFiles srr w.ask ⟨outDir, true, n, none⟩ fs with
    | (fs, .error e) => (fs, .error e)
    | (fs, .ok []) => (fs, .error .indexError)
    | (fs, .ok ((_, false) :: _)) =>
      match tagLoop w srr outDir inDir rest fs with
      | (fs, .error e) => (fs, .error e)
      | (fs, .ok l) => (fs, .ok ((n, .kept) :: l))
    | (fs, .ok ((out, true) :: _)) =>
      match fixTagging w out outDir inDir fs with
      | (fs, r) =>
        match removeFile fs out with
        | (fs, .error e) => (fs, .error e)
        | (fs, .ok _) =>
          match r with
          | .error e => (fs, .error e)
          | .ok s =>
            match tagLoop w srr outDir inDir rest fs with
            | (fs, .error e) => (fs, .error e)
            | (fs, .ok l) => (fs, .ok ((n, s) :: l))

/-- retag.py:60-67: the other files are extracted. -/
def tagOthers (w : TagWorld) (srr outDir : Path) : List Str → FS → FS × Res Unit
  | [], fs => (fs, .ok ())
  | n :: rest, fs =>
    match extractFiles srr w.ask ⟨outDir, true, n, none⟩ fs with
    | (fs, .error e) => (fs, .error e)
    | (fs, .ok _) => tagOthers w srr outDir rest fs

/-- The last file name ends with ".srs" (retag.py:62), in lower case only. -/
def isSrsName (n : Str) : Bool := (str ".srs").isSuffixOf n

/-- retag.py:45-97 `fix_tracks`; `stored` are the names of the stored files.  Simplified: the folders exist. -/
def fixTracks (w : TagWorld) (srr inDir outDir : Path) (stored : List Str) (fs : FS) : FS × Res (List (Str × TagStep)) :=
  if (str ".srr").isSuffixOf srr then
    match tagOthers w srr outDir (stored.filter fun n => !isSrsName n) fs with
    | (fs, .error e) => (fs, .error e)
    | (fs, .ok _) => tagLoop w srr outDir inDir (stored.filter isSrsName) fs
  else (fs, .error .attrError)

/-- retag.py:240-249: the exit status.  `fix_tracks` has no `return`, its result is `None`. -/
def tagStatus (r : Res (List (Str × TagStep))) : Res Nat :=
  match r with
  | .ok _ => .ok 1
  | .error .attrError => .ok 2
  | .error e => .error e

end Rescene
