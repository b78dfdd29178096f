import Verif.Model.Bytes
/-
Damaged files.
-/
namespace Rescene.Spec

/-- The bits of a file: those of each byte in turn, the lowest first. -/
def bits (d : Bytes) : List Bool := d.flatMap fun b => (List.range 8).map fun i => b.toNat.testBit i

/-- The file with bit `p` changed. -/
def flipBit (d : Bytes) (p : Nat) : Bytes := d.modify (p / 8) fun b => b ^^^ (1 <<< UInt8.ofNat (p % 8))

/-- Damage of a file `d`: one bit has changed; or two bits have, which are less than 2^32 - 1 bits apart; or any of up to 32
bits in a row. -/
inductive Damaged (d : Bytes) : Bytes → Prop
  | oneBit (p : Nat) : p < 8 * d.length → Damaged d (flipBit d p)
  | twoBits (p q : Nat) : p < q → q < p + (2 ^ 32 - 1) → q < 8 * d.length → Damaged d (flipBit (flipBit d p) q)
  | burst (pre x y post : List Bool) (d' : Bytes) : bits d = pre ++ (x ++ post) → bits d' = pre ++ (y ++ post) → x.length = y.length → x.length ≤ 32 →
      d ≠ d' → Damaged d d'

end Rescene.Spec
