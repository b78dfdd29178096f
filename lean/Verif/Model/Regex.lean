import Verif.Model.Str
/-
The part of Python's `re` that the name patterns of /repo/rescene use.  Only whether a
pattern matches is modelled (no code uses which of several matches is found first).
-/
namespace Rescene

/-- A position in a string: what is before it, reversed, and what follows. -/
abbrev Zip := Str × Str

/-- Regular expressions: a class of characters, a repeated class, sequence, alternative,
`^`, `$` and negative lookbehind for a sequence of classes. -/
inductive Rx where
  | cls (p : Nat → Bool)
  | many (p : Nat → Bool)
  | seq (a b : Rx)
  | alt (a b : Rx)
  | bos
  | eos
  | notBehind (ps : List (Nat → Bool))

/-- Every position that can be reached over characters of the class. -/
def manyEnds (p : Nat → Bool) : Str → Str → List Zip
  | b, [] => [(b, [])]
  | b, c :: r => (b, c :: r) :: (if p c then manyEnds p (c :: b) r else [])

/-- Whether the characters in front of the position (nearest first) are of these classes. -/
def behind : List (Nat → Bool) → Str → Bool
  | [], _ => true
  | _ :: _, [] => false
  | p :: ps, c :: b => p c && behind ps b

/-- All positions where a match that starts at a position can end.  `$` also matches before
a newline at the end of the string. -/
def Rx.ends : Rx → Zip → List Zip
  | .cls _, (_, []) => []
  | .cls p, (b, c :: r) => if p c then [(c :: b, r)] else []
  | .many p, (b, r) => manyEnds p b r
  | .seq x y, z => (x.ends z).flatMap y.ends
  | .alt x y, z => x.ends z ++ y.ends z
  | .bos, z => if z.1 = [] then [z] else []
  | .eos, z => if z.2 = [] ∨ z.2 = [0x0A] then [z] else []
  | .notBehind ps, z => if behind ps.reverse z.1 then [] else [z]

/-- `bool(re.match(rx, s))`. -/
def Rx.test (x : Rx) (s : Str) : Bool := !(x.ends ([], s)).isEmpty

/-- `.`: everything but a newline. -/
def rxDot (c : Nat) : Bool := c != 0x0A

/-- A literal character (lower case ASCII letter or not a letter) under `re.IGNORECASE`.
The letters in the patterns are a, p, r and t, which have no other case variants. -/
def rxCi (x : Nat) (c : Nat) : Bool := c == x || (0x61 ≤ x && x ≤ 0x7A && c + 0x20 == x)

/-- `[r-z]`. -/
def rxRz (c : Nat) : Bool := 0x72 ≤ c && c ≤ 0x7A

/-- `[r-z]` under `re.IGNORECASE`: also U+017F, whose upper case is S. -/
def rxRzCi (c : Nat) : Bool := (0x72 ≤ c && c ≤ 0x7A) || (0x52 ≤ c && c ≤ 0x5A) || c == 0x17F

/-- A sequence of literal characters under `re.IGNORECASE`. -/
def rxLit : Str → Rx → Rx
  | [], k => k
  | c :: s, k => .seq (.cls (rxCi c)) (rxLit s k)

end Rescene
