import Verif.Spec.Layout
/-
Packed data in a volume.
-/
namespace Rescene.Spec

/-- Offset `i` of the volume lies in packed data: behind the header of a file or recovery record
and before the next block. -/
def PackedByte (data : Bytes) (i : Nat) : Prop :=
  ∃ tr, readTrace data = .ok tr ∧ ∃ x ∈ tr, (x.1.btype = 0x74 ∨ isRecovery x.1 = true) ∧ x.1.pos + x.1.raw.length ≤ i ∧ i < x.2

/-- The other volume only has other packed data. -/
def SameButPacked (data data' : Bytes) : Prop :=
  data.length = data'.length ∧ ∀ i, data[i]? ≠ data'[i]? → PackedByte data i

end Rescene.Spec
