import Verif.Model.CreateFh
/-
What is said about SRR files made from open handles (C96), apart from the code.
-/
namespace Rescene.Spec
open Rescene

/-- The file arrives: some download gives its data, after at most `retries + 2` downloads that failed with
an error that is temporary (no download, or data that cannot be read as RAR blocks). -/
def Arrives (retries phase : Nat) (p : Posted) (d : Bytes) : Prop :=
  ∃ k, k ≤ retries + 2 ∧ p.got phase k = .ok d ∧
    ∀ n, n < k → ∃ e, (p.got phase n >>= readAll) = .error e ∧ (e = .envError ∨ e = .indexError)

/-- The handles are the files of the folder `disk`: the same names, all data arrives, and the last segments
are there.  A name and the name of the volume after it have no slash (`x.999` is followed by `x/000`). -/
structure SameFiles (w : World) (retries : Nat) (all : Handles) (disk : FS) : Prop where
  named : ∀ n p, handleOf all n = some p → p.name = n
  plain : ∀ n p, handleOf all n = some p → 0x2F ∉ n ∧ ∀ old q, nextArchive w.dig n old = .ok q → 0x2F ∉ q
  there : ∀ n p, handleOf all n = some p → ∃ d, disk n = some d ∧ ∀ phase, Arrives retries phase p d
  only : ∀ n, handleOf all n = none → disk n = none
  last : ∀ n p, handleOf all n = some p → p.last = true

/-- A file to store: downloaded at once, with the right size, and the same as on disk. -/
def SameStored (disk : FS) (p : Posted) : Prop :=
  ∃ d, disk p.name = some d ∧ p.got 1 0 = .ok d ∧ p.size = d.length

/-- An input file that is the same on disk: an SFV file by its handle, or the name of a volume. -/
def SameInput (w : World) (disk : FS) : FhIn → Prop
  | .handle p => 0x2F ∉ p.name ∧ endsWith (w.lower p.name) (str ".sfv") = true ∧ ∃ d, disk p.name = some d ∧ p.got 0 0 = .ok d
  | .name n => endsWith (w.lower n) (str ".sfv") = false

/-- The file name of an input file. -/
def inputName : FhIn → Str
  | .handle p => p.name
  | .name n => n

end Rescene.Spec
