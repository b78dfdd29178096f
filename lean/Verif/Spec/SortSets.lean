import Verif.Model.SortSets
/-
C93: volumes of one archive.
-/
namespace Rescene.Spec
open Rescene

/-- The small letter of an ASCII letter. -/
def smallLetter (c : Nat) : Nat := if 0x41 ≤ c ∧ c ≤ 0x5A then c + 32 else c

/-- The text is this word, in small letters or capitals. -/
def CaseWord (w : String) (s : Str) : Prop := (∀ c ∈ s, c < 128) ∧ s.map smallLetter = str w

/-- What is assumed about Python's decimal digits and about ignoring case, for ASCII characters. -/
def PlainDigits (dig : Nat → Bool) : Prop := ∀ c, c < 128 → (dig c = true ↔ 0x30 ≤ c ∧ c ≤ 0x39)
def PlainCase (ci : Nat → Nat → Bool) : Prop := ∀ p c, 0x61 ≤ p → p ≤ 0x7A → c < 128 → (ci p c = true ↔ smallLetter c = p)

/-- ASCII digits. -/
def AsciiDigits (s : Str) : Prop := ∀ c ∈ s, 0x30 ≤ c ∧ c ≤ 0x39

/-- The name ends like the name of a numbered volume without its extension: `x.part01`. -/
def LooksNumbered (base : Str) : Prop := ∃ x w ds, base = x ++ w ++ ds ∧ x ≠ [] ∧ CaseWord "part" w ∧ ds ≠ [] ∧ AsciiDigits ds

/-- The name of a volume of an archive: `base.part01.rar`, `base.r00` (also with s, t, u and v), or `base.rar`. -/
def SetVolume (base f : Str) : Prop :=
  (∀ c ∈ base, c < 128 ∧ c ≠ 0x0A) ∧
  ((∃ w ds e, f = base ++ str "." ++ w ++ ds ++ str "." ++ e ∧ CaseWord "part" w ∧ ds ≠ [] ∧ AsciiDigits ds ∧ CaseWord "rar" e) ∨
   (∃ l d e, f = base ++ str "." ++ [l, d, e] ∧ l < 128 ∧ smallLetter l ∈ str "rstuv" ∧ AsciiDigits [d, e]) ∨
   (∃ e, f = base ++ str "." ++ e ∧ CaseWord "rar" e ∧ ¬ LooksNumbered base))

end Rescene.Spec
