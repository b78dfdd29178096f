import Verif.Spec.Srr
import Verif.Model.Edit
import Verif.Model.Reconstruct
/-
C110: histories of edits of the stored files, and rebuilding several SRR files one after the other.
-/
namespace Rescene.Spec

/-- An edit of the stored files of an SRR: the arguments of `add_stored_files`, `remove_stored_files` and
`rename_stored_file`. -/
inductive Edit where
  | add (storeFiles : List Str) (news : List NewFile)
  | remove (names : List Str)
  | rename (name newName : Str)

/-- The program that makes the edit of the SRR `srr` with these bytes. -/
def Edit.prog (e : Edit) (srr tmp : Path) (file : Bytes) : Prog :=
  match e with
  | .add storeFiles news => addProg srr tmp file storeFiles news
  | .remove names => removeProg srr tmp file names
  | .rename name newName => renameProg srr tmp file name newName

/-- `fs'` is what any number of edits, all without an exception, made of `fs`.  The temporary file of an edit is a new one. -/
inductive Edited (srr : Path) : FS → FS → Prop
  | none (fs : FS) : Edited srr fs fs
  | edit {fs fs' fs'' : FS} {file : Bytes} {tmp : Path} (e : Edit) (hne : srr ≠ tmp) (ht : fs tmp = .none)
      (hs : fs srr = some file) (h : run (e.prog srr tmp file) fs [] = (fs', .ok ())) (more : Edited srr fs' fs'') :
      Edited srr fs fs''

/-- Reconstruction from several SRR files, one after the other, with the same arguments.  It ends when a volume may not be
overwritten. -/
def rebuildAll (a : RecArgs) : List Path → FS → Res (FS × List CrcReport × Bool)
  | [], fs => .ok (fs, [], true)
  | p :: t, fs => do
    let (fs1, r1, go) ← reconstruct { a with srr := p } fs
    if go then do
      let (fs2, r2, go2) ← rebuildAll a t fs1
      return (fs2, r1 ++ r2, go2)
    else return (fs1, r1, false)

/-- The name of the archived file of an entry. -/
def archivedName (e : Entry) : Option Str :=
  match e.kind with
  | .packed f => if e.btype = 0x74 then some f.name else .none
  | _ => .none

/-- The name of the volume of an entry. -/
def volumeName (e : Entry) : Option Str :=
  match e.kind with
  | .rarFile n => if e.btype = 0x71 then some n else .none
  | _ => .none

/-- The blocks `new` start a volume, with another name than the last one of `old`, and their first archived file has another
name than the last one of `old`. -/
structure StartsAnew (old new : List Entry) : Prop where
  volume : ∀ e ∈ new.head?, ∃ n, volumeName e = some n ∧ n ≠ []
  otherVolume : ∀ n ∈ (old.filterMap volumeName).getLast?, (new.filterMap volumeName).head? ≠ some n
  otherFile : ∀ n ∈ (old.filterMap archivedName).getLast?, (new.filterMap archivedName).head? ≠ some n

end Rescene.Spec
