import Verif.Model.Bitflip
/-
The first change of one byte that gives a file its checksum.
-/
namespace Rescene.Spec

/-- The values that are tried in the place of a byte: those that differ in one bit, all, those that differ in two adjacent bits. -/
def FlipMode.Allows (m : FlipMode) (old new : UInt8) : Prop :=
  match m with
  | .bit => ∃ i < 8, new = old ^^^ (1 <<< UInt8.ofNat i)
  | .byte => True
  | .switch => ∃ i < 7, new = old ^^^ (3 <<< UInt8.ofNat i)

/-- `out` is `data` with an allowed change of the byte at `cur`, and has the checksum. -/
def Repairs (data : Bytes) (expected : BitVec 32) (m : FlipMode) (cur : Nat) (out : Bytes) : Prop :=
  ∃ old new, data[cur]? = some old ∧ FlipMode.Allows m old new ∧ out = data.set cur new ∧ crc32 out 0 = expected

end Rescene.Spec
