import Verif.Model.Str
/-
Names of RAR volumes.
-/
namespace Rescene.Spec

/-- ASCII lower case. -/
def lowerA (c : Nat) : Nat := if 'A'.toNat ≤ c ∧ c ≤ 'Z'.toNat then c + 32 else c

/-- `s` is the text `lit`, up to the case of ASCII letters. -/
def Is (s lit : Str) : Prop := s.map lowerA = lit

/-- What is assumed about Python's table of decimal digits (`\d`): on ASCII, 0 to 9. -/
def DigOk (dig : Nat → Bool) : Prop := ∀ c, c < 128 → (dig c = true ↔ '0'.toNat ≤ c ∧ c ≤ '9'.toNat)

/-- What is assumed about `str.lower`: ASCII text at the end is lowered character by
character (what is in front of it need not be). -/
def LowerOk (lower : Str → Str) : Prop :=
  ∀ s t, (∀ c ∈ t, c < 128) → ∃ s', lower (s ++ t) = s' ++ t.map lowerA

/-- A number with exactly `w` decimal digits (the last ones). -/
def digits : Nat → Nat → Str
  | 0, _ => []
  | w + 1, n => digits w (n / 10) ++ ['0'.toNat + n % 10]

/-- Old style volume names: `base.rar`, `base.r00` ... `base.r99`, `base.s00` ... -/
def oldVol (base : Str) : Nat → Str
  | 0 => base ++ str ".rar"
  | k + 1 => base ++ str "." ++ ['r'.toNat + k / 100] ++ digits 2 k

/-- New style volume names with `w` digits: `base.part01.rar`. -/
def newVol (base : Str) (w n : Nat) : Str := base ++ str ".part" ++ digits w n ++ str ".rar"

/-- Numbered volumes: `base.000`, `base.001` ... -/
def numVol (base : Str) (n : Nat) : Str := base ++ str "." ++ digits 3 n

/-- The extensions of RAR volumes: `rar`, a letter from r to z and two digits, or three digits.
(U+017F is a lower case letter with upper case S; Python matches it too.) -/
def RarExt (dig : Nat → Bool) (e : Str) : Prop :=
  Is e (str "rar") ∨
  (∃ l a b, e = [l, a, b] ∧ (('r'.toNat ≤ lowerA l ∧ lowerA l ≤ 'z'.toNat) ∨ l = 0x17F) ∧ dig a = true ∧ dig b = true) ∨
  (∃ a b c, e = [a, b, c] ∧ dig a = true ∧ dig b = true ∧ dig c = true)

/-- The base name ends in `.part` and digits. -/
def EndsInPart (dig : Nat → Bool) (base : Str) : Prop :=
  ∃ p q d, base = p ++ q ++ d ∧ Is q (str ".part") ∧ ∀ c ∈ d, dig c = true

/-- A `.rar` name that looks like a first volume: no digit in front of `.rar`; or a number
that does not follow `part`; or `.part1`, with any number of zeros. -/
def FirstName (dig : Nat → Bool) (s : Str) : Prop :=
  ∃ b r, s = b ++ r ∧ Is r (str ".rar") ∧
    ((∀ c, b.getLast? = some c → dig c = false) ∨
     (∃ p d, b = p ++ d ∧ d ≠ [] ∧ (∀ c ∈ d, dig c = true) ∧ (∀ c, p.getLast? = some c → dig c = false) ∧
       ∀ p' q, p = p' ++ q → ¬ Is q (str "part")) ∨
     (∃ p q z, b = p ++ q ++ z ++ str "1" ∧ Is q (str ".part") ∧ ∀ c ∈ z, c = '0'.toNat))

end Rescene.Spec
