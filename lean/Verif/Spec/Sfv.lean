import Verif.Model.Sfv
import Verif.Spec.Volumes
/-
SFV files as lines of text.
-/
namespace Rescene.Spec

/-- `data` consists of these lines, each but the last ended by a carriage return or a newline. -/
inductive TextLines : Bytes → List Bytes → Prop
  | last (l : Bytes) (h : 0x0A ∉ l ∧ 0x0D ∉ l) : TextLines l [l]
  | more (l : Bytes) (h : 0x0A ∉ l ∧ 0x0D ∉ l) (sep : UInt8) (hs : sep = 0x0A ∨ sep = 0x0D)
      (data : Bytes) (lines : List Bytes) (ht : TextLines data lines) : TextLines (l ++ sep :: data) (l :: lines)

/-- A space, tab, vertical tab, form feed, return or newline. -/
def White (b : UInt8) : Prop := b.toNat = 0x20 ∨ (9 ≤ b.toNat ∧ b.toNat ≤ 13)

/-- A line of white space only. -/
def Blank (l : Bytes) : Prop := ∀ b ∈ l, White b

/-- The first byte that is not white space is a semicolon. -/
def Comment (l : Bytes) : Prop := ∃ w t, l = w ++ 0x3B :: t ∧ Blank w

/-- A hexadecimal digit. -/
def Hex (c : Nat) : Prop :=
  ('0'.toNat ≤ c ∧ c ≤ '9'.toNat) ∨ ('A'.toNat ≤ c ∧ c ≤ 'F'.toNat) ∨ ('a'.toNat ≤ c ∧ c ≤ 'f'.toNat)

/-- `t` is `l` without the white space at its end. -/
def Trimmed (l t : Bytes) : Prop := ∃ w, l = t ++ w ∧ Blank w ∧ ∀ b, t.getLast? = some b → ¬ White b

/-- The text of bytes in Latin-1. -/
def latin1 (b : Bytes) : Str := b.map fun x => x.toNat

end Rescene.Spec
