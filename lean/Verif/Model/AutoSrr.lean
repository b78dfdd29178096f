import Verif.Model.SrrCommand
import Verif.Model.Edit
/-
How `pyrescene.py` writes the SRR of a release: `generate_srr`, /repo/bin/pyrescene.py:835-1262.
-/
namespace Rescene

/-- What `generate_srr` works with, besides the SRR that `create_srr` makes.

* `srr` is the name of the SRR (pyrescene.py:870-874), `tmp` the temporary name (pyrescene.py:875); `tmpRemove` and
  `tmpAdd` are the names `mkstemp` gives in `remove_stored_files` and `add_stored_files`;
* `skip` is the option `always_no`; `allowed` is the answer of `can_overwrite` in `create_srr`;
* `work` fills the working folder with the files to store (pyrescene.py:933-1221): any program;
* `noFpcalc` tells whether the work ends because `fpcalc` is not installed (pyrescene.py:1054-1062);
* `storeFiles` are the paths given to `add_stored_files` (pyrescene.py:1240), `news` the files found in the working
  folder, with their names relative to it (`save_paths=True`) and contents. -/
structure AutoJob where
  srr : Path
  tmp : Path
  tmpRemove : Path
  tmpAdd : Path
  skip : Bool
  allowed : Bool
  work : Prog
  noFpcalc : Bool
  storeFiles : List Str
  news : List NewFile

/-- pyrescene.py:897-926: the handlers around `create_srr`.  `return False` is given here as the error that led to it.
With Python 3, IOError is EnvironmentError, and `e.message` of a KeyboardInterrupt is an AttributeError, so that
nothing is deleted (pyrescene.py:904-908). -/
def autoFailed (tmp : Path) (e : Err) : Prog :=
  match e with
  | .envError | .valueError | .unicodeError => .act (.unlink tmp) (raise e) fun _ => raise e
  | .keyboard => raise .attrError
  | e => raise e

/-- main.py:352-369: what `remove_stored_files` leaves. -/
def leftBytes (data : Bytes) (names : List Str) : Res Bytes := do
  let blocks ← readAll data
  chunksVal (removeChunks data names blocks)

/-- pyrescene.py:1240-1243: the files of the working folder are added and the SRR is put in its place. -/
def autoAdd (j : AutoJob) (left : Bytes) : Prog :=
  (addProg j.tmp j.tmpAdd left j.storeFiles j.news).andThen fun r =>
    match r with
    | .ok _ => moveResult j.tmp j.srr
    | .error e => raise e

/-- pyrescene.py:933-1243: the working folder is filled.  `fpcalc` missing: the temporary file is deleted and
ExecutableNotFound is raised. -/
def autoWork (j : AutoJob) (left : Bytes) : Prog :=
  j.work.andThen fun r =>
    match r with
    | .error e => raise e
    | .ok _ => if j.noFpcalc then .act (.unlink j.tmp) (raise .other) raise else autoAdd j left

/-- pyrescene.py:929-1243: all that follows `create_srr`, for the SRR `made`. -/
def autoEdits (lower upper : Str → Str) (j : AutoJob) (made : Bytes) : Prog :=
  .act (.read j.tmp)
    (match info lower upper made with
    | .error e => raise e
    | .ok i =>
      (removeProg j.tmp j.tmpRemove made (i.stored.map (·.1))).andThen fun r =>
        match r with
        | .error e => raise e
        | .ok _ =>
          match leftBytes made (i.stored.map (·.1)) with
          | .error e => raise e
          | .ok left => autoWork j left)
    raise

/-- pyrescene.py:877-1243: `generate_srr`.  `create` is `create_srr` writing to `tmp`, and `made` what it writes.
`there` is `os.path.exists(srr)`.  The result `.ok ()` is `True`; `False` is an error here, also when the user does not
want to overwrite.  The branch for releases with RAR files but no SFV can not be taken: the RAR files are those of the
SFV files.  The working folder is emptied afterwards, which is not modelled. -/
def autoSrr (lower upper : Str → Str) (j : AutoJob) (there : Bool) (create : Prog) (made : Res Bytes) : Prog :=
  if j.skip && there then .done (.ok ())
  else create.andThen fun r =>
    match r with
    | .error e => autoFailed j.tmp e
    | .ok _ =>
      if j.allowed then
        match made with
        | .ok d => autoEdits lower upper j d
        | .error e => raise e
      else raise .other

end Rescene
