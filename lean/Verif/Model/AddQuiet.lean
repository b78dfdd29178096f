import Verif.Model.Edit
/-
`add_stored_files` with `usenet=True`: /repo/rescene/main.py:240-341 and 1601-1613.
-/
namespace Rescene

/-- What the list of files to store can hold: a path, or a file that is open (as in srr_usenet.py:1344), with its name and
contents. -/
inductive StoreArg where
  | path (p : Str)
  | opened (name : Str) (content : Bytes)

/-- main.py:265: `os.path.normpath` of each.  It raises TypeError for anything but a path. -/
def normArgs : List StoreArg → Res (List Str)
  | [] => .ok []
  | .path p :: t => do
    let r ← normArgs t
    return normpath p :: r
  | .opened _ _ :: _ => .error .typeError

/-- main.py:272-283: names that are there already are taken out of the list, one for each stored file. -/
def quietDupes : List Str → List Block → Res (List Str)
  | files, [] => .ok files
  | files, b :: t =>
    if b.btype = 0x6A then
      match b.kind with
      | .stored _ name => do
        let existing ← osFileNameSrr name
        if existing ∈ files then quietDupes (files.erase existing) t else quietDupes files t
      | _ => .error .attrError
    else quietDupes files t

/-- main.py:306-307, 326-327 with 1601-1603 `_store_fh`: a path has no attribute `name`; it is read outside of the `try`. -/
def quietNews (files : List Str) : List NewFile := files.map fun f => (f, .error .attrError)

/-- main.py:240-341 `add_stored_files` with `usenet=True`. -/
def addQuiet (srr tmp : Path) (data : Bytes) (args : List StoreArg) : Prog :=
  let raise := fun e => Prog.done (.error e)
  match normArgs args with
  | .error e => raise e
  | .ok files =>
    .act (.read srr)
      (match readSrr data with
      | .error e => raise e
      | .ok blocks =>
        match quietDupes files blocks with
        | .error e => raise e
        | .ok rest =>
          .act (.create tmp)
            (writeChunks srr tmp (addChunks data (quietNews rest) false blocks)
              (replaceSrr srr tmp raise)
              (fun e => .act (.close tmp) (.act (.unlink tmp) (raise e) raise) raise))
            raise)
      raise

end Rescene
