import Verif.Model.Files
import Verif.Model.Reader
import Verif.Model.Paths
/-
Editing SRR files: /repo/rescene/main.py:240-450 and rar.py:653-680.
The file to edit is `srr` with contents `data`; `tmp` is the name `mkstemp` returned.
-/
namespace Rescene

/-- rar.py:653-658 `srr_data()`; only stored-file blocks have the method. -/
def srrData (data : Bytes) (b : Block) : Res Bytes :=
  match b.kind with
  | .stored size _ => .ok (readAt data (b.pos + b.hsize) size)
  | _ => .error .attrError

/-- The blocks of an SRR: main.py:271-276 and 352-356 (`RarReader(srr_file)`, the type
check and `read_all()`). -/
def readSrr (data : Bytes) : Res (List Block) := do
  let mode ← openReader data
  if mode ≠ .srr then throw .notSrr
  else readAll data

/-- main.py:276-287: the check for duplicates (`usenet=False`).  `storeFiles` is the list
after `os.path.normpath` (main.py:267). -/
def dupeCheck (storeFiles : List Str) : List Block → Res Unit
  | [] => .ok ()
  | b :: t =>
    if b.btype = 0x6A then
      match b.kind with
      | .stored _ name => do
        let existing ← osFileNameSrr name
        if existing ∈ storeFiles then throw .dupeName else dupeCheck storeFiles t
      | _ => .error .attrError
    else dupeCheck storeFiles t

/-- A file to store: its name in the SRR and its contents, or the exception its
`getsize`/`open` raises. -/
abbrev NewFile := Str × Res Bytes

/-- main.py:1569-1599 `_store`: what is written for one file.  The name is an input
(basename or path relative to `in_folder`).  The size in the header is that of the file
that is read: a file that changes between `getsize` and `read` is not modelled. -/
def storeChunks (f : NewFile) : List (Res Bytes) :=
  match f.2 with
  | .error e => [.error e]
  | .ok d => [mkStored f.1 d.length, .ok d]

/-- main.py:299-322: one pass over the blocks; `added` is `location`. -/
def addChunks (data : Bytes) (news : List NewFile) : Bool → List Block → List (Res Bytes)
  | added, [] => if added then [] else news.flatMap storeChunks
  | added, b :: t =>
    (if b.btype = 0x71 ∧ added = false then news.flatMap storeChunks else []) ++
    [.ok b.raw] ++ (if b.btype = 0x6A then [srrData data b] else []) ++
    addChunks data news (added || b.btype == 0x71) t

/-- What `writeChunks` writes in total, or the first exception. -/
def chunksVal : List (Res Bytes) → Res Bytes
  | [] => .ok []
  | .error e :: _ => .error e
  | .ok b :: t => do
    let r ← chunksVal t
    return b ++ r

/-- The end of all three edits: close the temporary file and put it in the place of
the SRR (main.py:332-341, 368-370; rar.py:678-680). -/
def replaceSrr (srr tmp : Path) (h : Err → Prog) : Prog :=
  .act (.close tmp) (.act (.unlink srr) (.act (.rename tmp srr) (.done (.ok ())) h) h) h

/-- main.py:240-341 `add_stored_files` (`usenet=False`).  `news` are the files found by
`_search`, with the name each gets in the SRR.  An exception while the temporary file
is written closes and removes it (main.py:328-331); the replacement is in the `else`
clause, outside the `try`. -/
def addProg (srr tmp : Path) (data : Bytes) (storeFiles : List Str) (news : List NewFile) : Prog :=
  let raise := fun e => Prog.done (.error e)
  .act (.read srr)
    (match readSrr data with
    | .error e => raise e
    | .ok blocks =>
      match dupeCheck storeFiles blocks with
      | .error e => raise e
      | .ok () =>
        .act (.create tmp)
          (writeChunks srr tmp (addChunks data news false blocks)
            (replaceSrr srr tmp raise)
            (fun e => .act (.close tmp) (.act (.unlink tmp) (raise e) raise) raise))
          raise)
    raise

/-- main.py:361-371: what is written when stored files are removed. -/
def removeChunks (data : Bytes) (names : List Str) : List Block → List (Res Bytes)
  | [] => []
  | b :: t =>
    (if b.btype = 0x6A then
      match b.kind with
      | .stored _ name => if name ∈ names then [] else [.ok b.raw, srrData data b]
      | _ => [.error .attrError]
    else [.ok b.raw]) ++ removeChunks data names t

/-- main.py:343-376 `remove_stored_files`: everything after the temporary file was made
is in one `try` (also reading the blocks), so a failing replacement removes the
temporary file, too. -/
def removeProg (srr tmp : Path) (data : Bytes) (names : List Str) : Prog :=
  let raise := fun e => Prog.done (.error e)
  let cleanup := fun e => Prog.act (.unlink tmp) (raise e) raise
  .act (.read srr)
    (match openReader data with
    | .error e => raise e
    | .ok mode =>
      if mode ≠ .srr then raise .notSrr
      else
        .act (.create tmp)
          (.act (.read srr)
            (match readAll data with
            | .error e => cleanup e
            | .ok blocks =>
              writeChunks srr tmp (removeChunks data names blocks) (replaceSrr srr tmp cleanup) cleanup)
            cleanup)
          raise)
    raise

/-- main.py:395-403: the first stored file with the name. -/
def findStored (name : Str) : List Block → Res Block
  | [] => .error .fileNotFound
  | b :: t =>
    if b.btype = 0x6A then
      match b.kind with
      | .stored _ n => if n = name then .ok b else findStored name t
      | _ => .error .attrError
    else findStored name t

/-- rar.py:660-676: what is written when a stored file gets a new name. -/
def renameChunks (data : Bytes) (b : Block) (newName : Str) : List (Res Bytes) :=
  match b.kind with
  | .stored size _ =>
    [.ok (data.take b.pos), mkStored newName size, .ok (data.drop (b.pos + b.hsize))]
  | _ => [.error .attrError]

/-- main.py:378-403 `rename_stored_file` with rar.py:660-680 `renameto`.  The checks of
the new name (rar.py:662, 628-646) come before the temporary file is made; there is no
exception handler. -/
def renameProg (srr tmp : Path) (data : Bytes) (name newName : Str) : Prog :=
  let raise := fun e => Prog.done (.error e)
  .act (.read srr)
    (match readSrr data with
    | .error e => raise e
    | .ok blocks =>
      match findStored name blocks with
      | .error e => raise e
      | .ok b =>
        if isGoodSrr newName = false then raise .attrError
        else
          match b.kind with
          | .stored size _ =>
            match mkStored newName size with
            | .error e => raise e
            | .ok _ =>
              .act (.create tmp)
                (writeChunks srr tmp (renameChunks data b newName) (replaceSrr srr tmp raise) raise)
                raise
          | _ => raise .attrError)
    raise

/-- The gathering loop of `merge_srrs`, main.py:428-438: application name (`none` is
Python's None), stored files with their data, other blocks. -/
def mergeGather (data : Bytes) : List Block → Option Str →
    Res (Option Str × List (Bytes × Bytes) × List Bytes)
  | [], app => .ok (app, [], [])
  | b :: t, app =>
    if b.btype = 0x69 then
      match b.kind with
      | .srrHeader a => mergeGather data t (if app = none ∨ app = some [] then some a else app)
      | _ => .error .attrError
    else if b.btype = 0x6A then do
      let d ← srrData data b
      let (app, st, ot) ← mergeGather data t app
      return (app, (b.raw, d) :: st, ot)
    else do
      let (app, st, ot) ← mergeGather data t app
      return (app, st, b.raw :: ot)

/-- All inputs of `merge_srrs`, in order. -/
def mergeGatherAll : List Bytes → Option Str → Res (Option Str × List (Bytes × Bytes) × List Bytes)
  | [], app => .ok (app, [], [])
  | data :: ds, app => do
    let blocks ← readAll data
    let (app, st, ot) ← mergeGather data blocks app
    let (app, st', ot') ← mergeGatherAll ds app
    return (app, st ++ st', ot ++ ot')

/-- main.py:412-450 `merge_srrs`: the contents of the output file.  (`srr_data()` is
called while writing; reading it earlier gives the same bytes.)  Without an application
name `SrrHeaderBlock(appname=None)` takes the branch that parses a block
(rar.py:511-512) and raises TypeError. -/
def mergeSrrs (inputs : List Bytes) (app : Option Str) : Res Bytes := do
  let (app, st, ot) ← mergeGatherAll inputs app
  match app with
  | none => throw .typeError
  | some app => do
    let h ← mkSrrHeader app
    return h ++ ((st.map fun x => x.1 ++ x.2).flatten ++ ot.flatten)

end Rescene
