import Verif.Model.Compressed
import Verif.Spec.RarSearch
/-
What it means that one of the RAR executables at hand made a compressed file.
-/
namespace Rescene.Spec
open Rescene

/-- `n` bytes of the file are enough for a test: they are all of it, or the newest executable makes
of them at least as much as the first part has, or they are the most that is tried: the share of
the file that the first part has, 97 percent more of the part and the size of the dictionary. -/
def TestPiece (w : RarWorld) (b : PackedPart) (size : Nat) (d : Bytes) (level : Str) (nm : RarNames) (n : Nat) : Prop :=
  n = d.length ∨
  (∃ newest r h t, w.repo.getLast? = some newest ∧
    w.run (d.take n) newest (command newest level (dictParameter b.flags) false none 0 nm.out [nm.piece]) = .ok r ∧
    r.heads = h :: t ∧ b.psize ≤ h.2) ∨
  ∃ window, dictSize b.flags = some window ∧ n = min d.length (b.psize * (100 * d.length + 97 * size) / (100 * size) + window)

/-- One of the executables, with one of the numbers of threads that are tried, makes of the file
`d` the packed data `packed`, as far as the program can tell, and so does every other one that
cannot be told from it by the test. -/
structure MadeBy (w : RarWorld) (b : PackedPart) (d packed : Bytes) (level : Str) (nm : RarNames) : Prop where
  /-- Of a test piece it makes an archive that begins like the original. -/
  made : ∃ v ∈ w.repo, ∃ c, Threads w.settings v c ∧
    ∀ n, n ≤ d.length → TestPiece w b packed.length d level nm n → ∀ r,
      w.run (d.take n) v (command v level (dictParameter b.flags) false c (if n = d.length then 0 else n * 3 / 5) nm.out [nm.piece]) = .ok r →
      Begins b.psize b.crc r
  /-- The executables for which the test succeeds make the packed data of the whole file. -/
  agree : ∀ v ∈ w.repo, ∀ c split n split' r, TestPiece w b packed.length d level nm n →
    w.run (d.take n) v (command v level (dictParameter b.flags) false c split' nm.out [nm.piece]) = .ok r →
    Begins b.psize b.crc r →
    ∃ r', w.full v (command v level (dictParameter b.flags) false c split nm.out [nm.src]) = .ok r' ∧ r'.packed = packed

end Rescene.Spec
