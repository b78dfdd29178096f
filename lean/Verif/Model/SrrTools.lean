import Verif.Model.Extract
import Verif.Model.Info
/-
The tools /repo/bin/srr_extract_srs.py and /repo/bin/srr_merge.py.
-/
namespace Rescene

/-- bin/srr_extract_srs.py:52-55: the loop over the names.  The library's own
`can_overwrite` (main.py:149-156) always answers no. -/
def extractEach (srr : Path) (out : Str) : List Str → FS → FS × Res Unit
  | [], fs => (fs, .ok ())
  | name :: t, fs =>
    match extractFiles srr (fun _ => false) ⟨out, true, name, none⟩ fs with
    | (fs, .error e) => (fs, .error e)
    | (fs, .ok _) => extractEach srr out t fs

/-- bin/srr_extract_srs.py:36-55 `main` with two arguments.  `isDir` is whether the output
folder exists. -/
def extractSrs (lower upper : Str → Str) (srr : Path) (out : Str) (isDir : Bool) (fs : FS) : FS × Res Unit :=
  if ¬ endsWith srr (str ".srr") then (fs, .error .attrError)
  else if ¬ isDir then (fs, .error .attrError)
  else
    match fs srr with
    | none => (fs, .error .envError)
    | some data =>
      match info lower upper data with
      | .error e => (fs, .error e)
      | .ok i => extractEach srr out ((i.stored.map (·.1)).filter fun n => endsWith n (str ".srs")) fs

/-- main.py:429-436: the blocks of one SRR of `merge_srrs`.  The stored files are kept as
blocks with the name of the SRR, as their data is read later. -/
def mergeCollect (p : Path) : List Block → Option Str → Res (Option Str × List (Path × Block) × List Bytes)
  | [], app => .ok (app, [], [])
  | b :: t, app =>
    if b.btype = 0x69 then
      match b.kind with
      | .srrHeader a => mergeCollect p t (if app = none ∨ app = some [] then some a else app)
      | _ => .error .attrError
    else if b.btype = 0x6A then do
      let (app, st, ot) ← mergeCollect p t app
      return (app, (p, b) :: st, ot)
    else do
      let (app, st, ot) ← mergeCollect p t app
      return (app, st, b.raw :: ot)

/-- main.py:428-436: all SRRs. -/
def mergeCollectAll (fs : FS) : List Path → Option Str → Res (Option Str × List (Path × Block) × List Bytes)
  | [], app => .ok (app, [], [])
  | p :: ps, app =>
    match fs p with
    | none => .error .envError
    | some data => do
      let blocks ← readAll data
      let (app, st, ot) ← mergeCollect p blocks app
      let (app, st', ot') ← mergeCollectAll fs ps app
      return (app, st ++ st', ot ++ ot')

/-- main.py:443-445: writing the stored files.  `w` is what was written up to now, and
`seen` gives for each stored file how many of these bytes are in the file `out` when
`srr_data` opens its SRR; the others are still in the buffer of `new`. -/
def mergeStored (fs : FS) (out : Path) : List Nat → Bytes → List (Path × Block) → Bytes × Res Unit
  | _, w, [] => (w, .ok ())
  | seen, w, (p, b) :: t =>
    let w := w ++ b.raw
    match (fs.set out (some (w.take (seen.headD 0)))) p with
    | none => (w, .error .envError)
    | some data =>
      match srrData data b with
      | .error e => (w, .error e)
      | .ok d => mergeStored fs out seen.tail (w ++ d) t

/-- main.py:412-450 `merge_srrs`, on files.  A file that cannot be opened for writing is
not modelled. -/
def mergeFiles (srrs : List Path) (out : Path) (app : Option Str) (seen : List Nat) (fs : FS) : FS × Res Unit :=
  match mergeCollectAll fs srrs app with
  | .error e => (fs, .error e)
  | .ok (none, _, _) => (fs.set out (some []), .error .typeError)
  | .ok (some app, st, ot) =>
    match mkSrrHeader app with
    | .error e => (fs.set out (some []), .error e)
    | .ok h =>
      match mergeStored fs out seen h st with
      | (w, .error e) => (fs.set out (some w), .error e)
      | (w, .ok _) => (fs.set out (some (w ++ ot.flatten)), .ok ())

/-- bin/srr_merge.py:36-44 `main`: `output` is the option -o. -/
def mergeTool (output : Option Str) (args : List Path) (seen : List Nat) (fs : FS) : FS × Res Unit :=
  match output.getD [], args with
  | [], [] => (fs, .error .indexError)
  | [], a :: t => mergeFiles (a :: t) (a.take (a.length - 4) ++ str "_joined.srr") none seen fs
  | c :: o, args => mergeFiles args (c :: o) none seen fs

end Rescene
