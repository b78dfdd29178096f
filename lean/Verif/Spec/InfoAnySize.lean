import Verif.Spec.InfoContents

/-! C58: the size of an archived file when its headers do not agree. -/

namespace Rescene.Spec

open Rescene

/-- The size field of a header says "not known" the way custom packers do: 64 one bits. -/
def Unknown64 (f : FileFields) : Prop := f.unpackedSize = 2 ^ 64 - 1

/-- The size field says "not known" with 32 one bits. -/
def Unknown32 (f : FileFields) : Prop := f.unpackedSize = 2 ^ 32 - 1

/-- The header states no size that could count: the field is "not known" (64 bits) or zero. -/
def NoSize (f : FileFields) : Prop := Unknown64 f ∨ f.unpackedSize = 0

/-- The header is the first that states the size `u` of the file: no header before it does. -/
def FirstStated (parts : List FileFields) (u : Nat) : Prop :=
  ∃ pre f post, parts = pre ++ f :: post ∧ (∀ g ∈ pre, NoSize g) ∧ ¬ NoSize f ∧ ¬ Unknown32 f ∧ f.unpackedSize = u

/-- The first header that could state a size says "not known" with 32 bits, and its part is not
empty. -/
def FirstUnknown (parts : List FileFields) : Prop :=
  ∃ pre f post, parts = pre ++ f :: post ∧ (∀ g ∈ pre, NoSize g) ∧ Unknown32 f ∧ 0 < f.packedSize

/-- The size of the data of the parts whose headers say "not known" with 32 bits. -/
def unknownData (parts : List FileFields) : Nat :=
  ((parts.filter fun f => f.unpackedSize = 2 ^ 32 - 1).map (·.packedSize)).sum

end Rescene.Spec
