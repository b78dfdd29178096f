import Verif.Model.Str
/-
A file system and programs on it.  Every access can fail and the process can be killed
between (or during) accesses: the executions of a program are its runs under an arbitrary
list of faults, and its crash states are all file systems that exist at some moment.
Directories, permissions, hard links and delayed writes of the operating system are not
modelled.
-/
namespace Rescene

abbrev Path := Str

/-- The regular files and their contents. -/
abbrev FS := Path → Option Bytes

/-- The file system with one file replaced, created or deleted. -/
def FS.set (fs : FS) (p : Path) (c : Option Bytes) : FS := fun q => if q = p then c else fs q

inductive Act where
  /-- any access that only reads -/
  | read (p : Path)
  /-- `mkstemp(...)` / `open(p, "wb")` -/
  | create (p : Path)
  /-- `f.write(b)` on an open file -/
  | write (p : Path) (b : Bytes)
  | close (p : Path)
  /-- `os.unlink(p)` / `os.remove(p)` -/
  | unlink (p : Path)
  | rename (p q : Path)
  deriving DecidableEq

/-- A program: a tree of accesses; `ok` is what follows when the access succeeds and
`fail e` what follows when it raises `e`. -/
inductive Prog where
  | done (r : Res Unit)
  | act (a : Act) (ok : Prog) (fail : Err → Prog)

/-- A fault of one access: the exception and, for a write, the number of bytes that
reached the file. -/
abbrev Fault := Option (Err × Nat)

/-- Append to a file. -/
def appendTo (fs : FS) (p : Path) (b : Bytes) : FS := fs.set p (some ((fs p).getD [] ++ b))

/-- One access. -/
def step (a : Act) (fs : FS) (f : Fault) : FS × Option Err :=
  match f with
  | some (e, n) =>
    match a with
    | .write p b => (appendTo fs p (b.take n), some e)
    | _ => (fs, some e)
  | none =>
    match a with
    | .read _ => (fs, none)
    | .create p => (fs.set p (some []), none)
    | .write p b => (appendTo fs p b, none)
    | .close _ => (fs, none)
    | .unlink p => if (fs p).isSome then (fs.set p none, none) else (fs, some .envError)
    | .rename p q =>
      match fs p with
      | none => (fs, some .envError)
      | some c => ((fs.set p none).set q (some c), none)

/-- Run a program; the list gives the faults of the accesses in order, and there are
none after its end. -/
def run : Prog → FS → List Fault → FS × Res Unit
  | .done r, fs, _ => (fs, r)
  | .act a ok fail, fs, faults =>
    match step a fs (faults.headD none) with
    | (fs', none) => run ok fs' faults.tail
    | (fs', some e) => run (fail e) fs' faults.tail

/-- The file systems that exist at some moment of some execution in which only accesses
in `may` are hit by a fault: what is on disk when the process is killed.  During a write
any prefix of the bytes may have been written. -/
inductive Moment (may : Act → Bool) : Prog → FS → FS → Prop
  | now {p fs} : Moment may p fs fs
  | writing {p b ok fail fs n} : Moment may (.act (.write p b) ok fail) fs (appendTo fs p (b.take n))
  | step {a ok fail fs fs' m} : step a fs none = (fs', none) → Moment may ok fs' m →
      Moment may (.act a ok fail) fs m
  | fail {a ok fail fs f fs' e m} : step a fs f = (fs', some e) → (f ≠ none → may a = true) →
      Moment may (fail e) fs' m → Moment may (.act a ok fail) fs m

/-- In the run with these faults only accesses in `may` are hit by a fault. -/
def FaultsIn (may : Act → Bool) : Prog → FS → List Fault → Prop
  | .done _, _, _ => True
  | .act a ok fail, fs, faults =>
    (faults.headD none ≠ none → may a = true) ∧
      match step a fs (faults.headD none) with
      | (fs', none) => FaultsIn may ok fs' faults.tail
      | (fs', some e) => FaultsIn may (fail e) fs' faults.tail

/-- Reading a file, making the temporary file and writing to it. -/
def Act.isIo : Act → Bool
  | .read _ => true
  | .create _ => true
  | .write _ _ => true
  | _ => false

/-- Write chunks to an open file one after the other; a chunk can be an exception that
is raised instead (computing it failed).  Every chunk is first read from `src`. -/
def writeChunks (src p : Path) : List (Res Bytes) → Prog → (Err → Prog) → Prog
  | [], k, _ => k
  | .error e :: _, _, h => h e
  | .ok b :: t, k, h => .act (.read src) (.act (.write p b) (writeChunks src p t k h) h) h

end Rescene
