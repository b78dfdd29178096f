import Verif.Model.Retag
/-
C86: what retag.py is to do.
-/
namespace Rescene.Spec

/-- The two paths have the same parts but for upper and lower case. -/
inductive SameParts (lower : Str → Str) : List Str → List Str → Prop where
  | nil : SameParts lower [] []
  | cons {a b l m} : lower a = lower b → SameParts lower l m → SameParts lower (a :: l) (b :: m)

/-- A name in a folder. -/
def OneName (s : Str) : Prop := s ≠ [] ∧ 0x2F ∉ s

/-- The files and folders are a tree: what exists is listed in its folder, and the other way around. -/
def TreeLike (w : TagWorld) (fs : FS) : Prop :=
  ∀ d x, OneName x → (w.existing fs (posixJoin2 d x) = true ↔ ∃ l, w.listdir fs d = .ok l ∧ x ∈ l)

/-- No folder has two names that differ in case only. -/
def NoTwins (w : TagWorld) (fs : FS) : Prop :=
  ∀ d l x y, w.listdir fs d = .ok l → x ∈ l → y ∈ l → w.lower x = w.lower y → x = y

/-- The parts lead from folder to folder, below `d`. -/
inductive Leads (w : TagWorld) (fs : FS) : Path → List Str → Prop where
  | nil {d} : Leads w fs d []
  | cons {d x l rest} : OneName x → w.listdir fs d = .ok l → x ∈ l → Leads w fs (posixJoin2 d x) rest → Leads w fs d (x :: rest)

end Rescene.Spec
