import Verif.Model.Str
/-
Specification vocabulary for names, independent of the model's functions.
-/
namespace Rescene.Spec

/-- A `str` that UTF-8 can encode: Unicode scalar values only (no surrogates). -/
def Encodable (s : Str) : Prop := ∀ c ∈ s, c < 0xD800 ∨ (0xE000 ≤ c ∧ c < 0x110000)

/-- Number of UTF-8 bytes of a code point. -/
def cpLen (c : Nat) : Nat := if c < 0x80 then 1 else if c < 0x800 then 2 else if c < 0x10000 then 3 else 4

/-- Number of UTF-8 bytes of a `str`. -/
def utf8Len (s : Str) : Nat := (s.map cpLen).sum

/-- A character that must not occur in the name of a stored file. -/
def BadChar (c : Nat) : Prop :=
  c = '\\'.toNat ∨ c = ':'.toNat ∨ c = '*'.toNat ∨ c = '?'.toNat ∨ c = '"'.toNat ∨ c = '<'.toNat ∨
    c = '>'.toNat ∨ c = '|'.toNat

/-- A legal name for a stored file: not empty, no character Windows forbids (`/` is allowed). -/
def LegalName (s : Str) : Prop := s ≠ [] ∧ ∀ c ∈ s, ¬ BadChar c

end Rescene.Spec
