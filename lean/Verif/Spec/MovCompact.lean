import Verif.Spec.Mov
/-
The compact table of sample sizes of MP4 files, ISO/IEC 14496-12, 8.7.3.3.
-/
namespace Rescene.Spec
open Rescene

/-- Two sizes of four bits in each byte. -/
def halves : List Nat → Bytes
  | [] => []
  | [a] => [UInt8.ofNat (a * 16)]
  | a :: b :: l => UInt8.ofNat (a * 16 + b) :: halves l

/-- "stz2": version and flags, three reserved bytes, the number of bits of each size, the number of samples and the sizes. -/
def CompactTable (data : Bytes) (bits : Nat) (sizes : List Nat) : Prop :=
  sizes.length < 2 ^ 32 ∧ (∀ s ∈ sizes, s < 2 ^ bits) ∧ ∃ v b, v.length = 4 ∧
    data = v ++ ([0, 0, 0, UInt8.ofNat bits] ++ (be 4 sizes.length ++
      ((if bits = 4 then halves sizes else numbers (bits / 8) sizes) ++ b))) ∧ (bits = 4 ∨ bits = 8 ∨ bits = 16)

end Rescene.Spec
