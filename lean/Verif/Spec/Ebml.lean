import Verif.Model.Ebml
/-
What EBML integers and Matroska lacing headers are, after the Matroska specification.
-/
namespace Rescene.Spec

/-- `b` is the value `v` as an EBML variable size integer of `n` bytes: `n - 1` zero
bits, a one bit, and the value in the `7 n` bits that are left, big endian. -/
def IsVint (n v : Nat) (b : Bytes) : Prop :=
  1 ≤ n ∧ n ≤ 8 ∧ v < 2 ^ (7 * n) ∧ b = be n (2 ^ (7 * n) + v)

/-- `b` is the difference `d` as a signed EBML integer of `n` bytes: the value plus half
of its range, as an EBML integer. -/
def IsSignedVint (n : Nat) (d : Int) (b : Bytes) : Prop :=
  ∃ v : Nat, IsVint n v b ∧ d = (v : Int) - (2 ^ (7 * n - 1) - 1)

/-- A Xiph size: as many bytes 255 as fit, and the rest in a last byte below 255. -/
def xiphSize (s : Nat) : Bytes := List.replicate (s / 255) 0xFF ++ [UInt8.ofNat (s % 255)]

/-- `b` holds the differences of every size in the list to the one before it. -/
def Diffs : Nat → List Nat → Bytes → Prop
  | _, [], b => b = []
  | prev, s :: l, b =>
    ∃ n b1 b2, IsSignedVint n ((s : Int) - prev) b1 ∧ Diffs s l b2 ∧ b = b1 ++ b2

/-- `hdr` is a lacing header for frames of the given sizes.  The size of the last frame is
never written: it follows from the length of the block. -/
def Laced (t : Lace) (sizes : List Nat) (hdr : Bytes) : Prop :=
  match t with
  | .none => sizes.length = 1 ∧ hdr = []
  | .fixed => 1 ≤ sizes.length ∧ sizes.length ≤ 256 ∧ (∃ s, ∀ x ∈ sizes, x = s) ∧
      hdr = [UInt8.ofNat (sizes.length - 1)]
  | .xiph => 1 ≤ sizes.length ∧ sizes.length ≤ 256 ∧
      hdr = UInt8.ofNat (sizes.length - 1) :: sizes.dropLast.flatMap xiphSize
  | .ebml => 1 ≤ sizes.length ∧ sizes.length ≤ 256 ∧
      match sizes.dropLast with
      | [] => hdr = [UInt8.ofNat (sizes.length - 1)]
      | s :: l => ∃ n b1 b2, IsVint n s b1 ∧ Diffs s l b2 ∧
          hdr = UInt8.ofNat (sizes.length - 1) :: b1 ++ b2

/-- The Matroska specification: bits 1 and 2 of the flags of a block give the lacing: 00 no
lacing, 01 Xiph lacing, 11 EBML lacing, 10 fixed-size lacing. -/
def laceCode : Lace → Nat
  | .none => 0
  | .xiph => 1
  | .fixed => 2
  | .ebml => 3

end Rescene.Spec
