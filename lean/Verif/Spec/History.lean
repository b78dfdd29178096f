import Verif.Spec.Unchanged
/-
C111: the stored files of an SRR as lists of names and contents, and what edits do to them.
-/
namespace Rescene.Spec

/-- The stored files of an SRR, in two lists: those before the first volume, and those after it. -/
structure Stored where
  front : List (Str × Bytes)
  back : List (Str × Bytes)

/-- All files. -/
def Stored.all (s : Stored) : List (Str × Bytes) := s.front ++ s.back

/-- The first file with the name gets another one. -/
def renameFirst (name newName : Str) : List (Str × Bytes) → List (Str × Bytes)
  | [] => []
  | (n, d) :: t => if n = name then (newName, d) :: t else (n, d) :: renameFirst name newName t

/-- A file to store, when it can be read. -/
def addedFile (f : NewFile) : Option (Str × Bytes) :=
  match f.2 with
  | .ok d => some (f.1, d)
  | .error _ => none

/-- What an edit does. -/
def Stored.edit (s : Stored) : Edit → Stored
  | .add _ news => { s with front := s.front ++ news.filterMap addedFile }
  | .remove names => ⟨s.front.filter fun f => !names.contains f.1, s.back.filter fun f => !names.contains f.1⟩
  | .rename name newName =>
    if name ∈ s.front.map (·.1) then { s with front := renameFirst name newName s.front }
    else { s with back := renameFirst name newName s.back }

/-- The file of an entry. -/
def storedFile (e : Entry) : Option (Str × Bytes) :=
  match e.kind with
  | .stored _ n => if e.btype = 0x6A then some (n, e.data) else none
  | _ => none

/-- The stored files of an SRR with these entries. -/
def storedIn (c : List Entry) : Stored := ⟨(beforeRar c).filterMap storedFile, (fromRar c).filterMap storedFile⟩

/-- The names and contents of files to store. -/
def filesOf (fs : FS) (stored : List (Str × Path)) : List (Str × Bytes) := stored.filterMap fun x => (fs x.2).map fun d => (x.1, d)

/-- `fs'` is what these edits, all without an exception, made of `fs`. -/
inductive EditedBy (srr : Path) : List Edit → FS → FS → Prop
  | none (fs : FS) : EditedBy srr [] fs fs
  | edit {es : List Edit} {fs fs' fs'' : FS} {file : Bytes} {tmp : Path} (e : Edit) (hne : srr ≠ tmp) (ht : fs tmp = .none)
      (hs : fs srr = some file) (h : run (e.prog srr tmp file) fs [] = (fs', .ok ())) (more : EditedBy srr es fs' fs'') :
      EditedBy srr (e :: es) fs fs''

end Rescene.Spec
