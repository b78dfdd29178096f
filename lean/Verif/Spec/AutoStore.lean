import Verif.Model.AutoStore
/-
The files that are stored.
-/
namespace Rescene.Spec
open Rescene

/-- Samples whose names differ in the extension only follow each other in the list. -/
def Together (media : List Str) : Prop :=
  ∀ a x b y c, media = a ++ x :: (b ++ y :: c) → stem x = stem y → ∀ z ∈ b, stem z = stem x

/-- A file with this extension. -/
def HasExt (lower : Str → Str) (ext : String) (f : Str) : Prop := lower (f.drop (f.length - 4)) = str ext

instance (lower : Str → Str) (ext : String) (f : Str) : Decidable (HasExt lower ext f) := inferInstanceAs (Decidable (_ = _))

/-- `s` is the SFV file beside `f`, up to case. -/
def SfvOf (lower : Str → Str) (f s : Str) : Prop := lower s = lower (f.take (f.length - 4)) ++ str ".sfv"

end Rescene.Spec
