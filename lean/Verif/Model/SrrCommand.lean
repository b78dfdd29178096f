import Verif.Model.Info
import Verif.Model.Glob
import Verif.Model.CreateFiles
/-
The command `srr`: /repo/rescene/srr.py.
-/
namespace Rescene

/-- `name.replace('\\', '/')`. -/
def toSlashes (s : Str) : Str := s.map fun c => if c = 0x5C then 0x2F else c

/-- srr.py:174-190: a file below the folder with the extension and size of the archived file.  `below` are
the paths that `os.walk` gives. -/
def sameSize (fs : FS) (below : List Path) (name : Path) (size : Nat) : List Path :=
  below.filter fun f => fnmatch (basename f) (0x2A :: extOf name) && ((fs f).getD []).length == size

/-- srr.py:164-204: what is found out about one archived file: nothing bad (`none`), or the status.  The
checksum is compared as a number, not as eight digits; a folder with the name of the file is not modelled. -/
def verifyOne (fs : FS) (below : List Path) (folder : Str) (auto : Bool) (a : ArchInfo) : Option Nat :=
  if a.crc = 0 then none
  else
    let name := posixJoin2 folder (toSlashes a.name)
    match fs name with
    | none =>
      if auto = false then some 2
      else if (sameSize fs below name a.size).any fun f => (crc32 ((fs f).getD []) 0).toNat == a.crc then none
      else some 2
    | some d => if (crc32 d 0).toNat = a.crc then none else some 1

/-- srr.py:153-205 `verify_extracted_files`: the status. -/
def verifyFiles (fs : FS) (below : List Path) (folder : Str) (auto : Bool) (archived : List ArchInfo) : Nat :=
  archived.foldl (fun s a => (verifyOne fs below folder auto a).getD s) (if archived = [] then 10 else 0)

/-- srr.py:153-205, from the SRR. -/
def verifyExtracted (lower upper : Str → Str) (srr : Bytes) (fs : FS) (below : List Path) (folder : Str) (auto : Bool) : Res Nat := do
  let i ← info lower upper srr
  return verifyFiles fs below folder auto (i.archived.map (·.2))

/-- A program and what follows it. -/
def Prog.andThen : Prog → (Res Unit → Prog) → Prog
  | .done r, k => k r
  | .act a ok fail, k => .act a (ok.andThen k) fun e => (fail e).andThen k

/-- utility.py:468-515 `replace_result(src, dest)` of a file that was written. -/
def moveResult (src dest : Path) : Prog :=
  if dest.isPrefixOf src then
    let put := Prog.act (.rename src dest) (.done (.ok ()))
      fun e => if e = .envError then .act (.unlink src) (raise e) raise else raise e
    .act (.unlink dest) put fun e => if e = .envError then put else raise e
  else raise .assertError

/-- srr.py:381-388: `except (EnvironmentError, ValueError, FileNotFound)`; a UnicodeError is a ValueError.
`struct.error` is none of them. -/
def Err.caught : Err → Bool
  | .envError | .valueError | .unicodeError | .fileNotFound => true
  | _ => false

/-- srr.py:372: what follows `rescene.create_srr`, also when that did nothing.  `made` tells whether
`os.path.isfile(src)` holds in `replace_result` (utility.py:479-483): the temporary name is new (utility.py:464), so
it does exactly when `create_srr` has opened the file. -/
def thenMove (tmp srr : Path) (made : Bool) : Res Unit → Prog
  | .ok _ => if made then moveResult tmp srr else if srr.isPrefixOf tmp then .done (.ok ()) else raise .assertError
  | .error e => raise e

/-- srr.py:373-397: the end; errors that are caught. -/
def thenExit (srr : Path) : Res Unit → Prog
  | .ok _ => .done (.ok ())
  | .error e => if e.caught then .act (.unlink srr) (raise e) fun _ => raise e else raise e

/-- srr.py:363-397: creating an SRR.  `create` is `rescene.create_srr` with `tmp`, the temporary name; the
result `.ok ()` is the exit status 0, also when the user did not want to overwrite (`allowed` is the answer of
`can_overwrite`). -/
def srrCreate (srr tmp : Path) (allowed : Bool) (create : Prog) : Prog :=
  (create.andThen (thenMove tmp srr allowed)).andThen (thenExit srr)

/-- srr.py:551-556: the answers of the user, until one is "y" or "n".  At the end of the input `raw_input`
raises EOFError. -/
def askOverwrite (lower : Str → Str) : List Str → Res Bool
  | [] => .error .other
  | a :: l => if lower a = str "y" then .ok true else if lower a = str "n" then .ok false else askOverwrite lower l

/-- srr.py:544-559 `can_overwrite`, with the options -y and -n. -/
def canOverwrite (lower : Str → Str) (fs : FS) (p : Path) (yes no : Bool) (answers : List Str) : Res Bool :=
  if yes = false ∧ no = false ∧ (fs p).isSome then askOverwrite lower answers
  else if no = true ∧ (fs p).isSome then .ok false
  else .ok true

/-- srr.py:344-362: where the SRR goes.  `work` is the working directory. -/
def srrTarget (lower : Str → Str) (work folder : Str) (output : Option Str) (parent : Bool) (infiles : List Path) : Res Path :=
  match output with
  | some o =>
    if o ≠ [] ∧ lower (o.drop (o.length - 4)) = str ".srr" then .ok o
    else srrIn (if o = [] then work else o)
  | none => srrIn work
where
  srrIn (out : Str) : Res Path :=
    if parent then .ok (posixJoin2 out (basename folder ++ str ".srr"))
    else match infiles with
      | [] => .error .indexError
      | f :: _ => .ok (posixJoin2 out ((basename f).take ((basename f).length - 4) ++ str ".srr"))

end Rescene
