import Verif.Model.Inputs
import Verif.Spec.Volumes
/-
What is given to `create_srr`.
-/
namespace Rescene.Spec

/-- On this list the relation orders the elements, some of them perhaps equally. -/
structure WeakOrderOn {α : Type} (lt : α → α → Bool) (l : List α) : Prop where
  irrefl : ∀ a ∈ l, lt a a = false
  trans : ∀ a ∈ l, ∀ b ∈ l, ∀ c ∈ l, lt a b = true → lt b c = true → lt a c = true
  between : ∀ a ∈ l, ∀ b ∈ l, ∀ c ∈ l, lt a c = true → lt a b = true ∨ lt b c = true

/-- What is assumed about Python's `sorted`: it returns the same elements, in order if there is one. -/
structure SortsBy {α : Type} (lt : α → α → Bool) (sort : List α → List α) : Prop where
  perm : ∀ l, (sort l).Perm l
  sorted : ∀ l, WeakOrderOn lt l → (sort l).Pairwise fun a b => lt b a = false

/-- What is assumed about Python and the file system: the ASCII part of Python's tables, `sorted`, and that
paths are listed once. -/
structure WorldOk (w : World) : Prop where
  dig : DigOk w.dig
  lower : LowerOk w.lower
  ascii : ∀ t : Str, (∀ c ∈ t, c < 128) → w.lower t = t.map lowerA
  sort : SortsBy (sfvLt w.lower w.dig) w.sort
  all : w.all.Nodup

/-- The path is written in the usual way: folder, one slash, name. -/
def Usual (p : Path) : Prop := posixJoin2 (dirname p) (basename p) = p

/-- The folder of the file can be listed, the file is in it, and no other file there has the same name up
to case. -/
def OnlyCase (w : World) (fs : FS) (p : Path) : Prop :=
  ∃ names, w.listdir (dirname p) = some names ∧ basename p ∈ names ∧
    ∀ c ∈ names, w.lower c = w.lower (basename p) → (fs (posixJoin2 (dirname p) c)).isSome → c = basename p

/-- The archive header of a volume of a set: type 0x73, and bit 0 of the flags. -/
def VolHeader (b : Block) : Prop := b.btype = 0x73 ∧ b.flags.testBit 0 = true

/-- What the blocks say about the naming of the volumes: the last such header has bit 4 of its flags set in
the new naming; without a header it is the new naming. -/
def NamingIs (blocks : List Block) (isOld : Bool) : Prop :=
  (∃ pre h post, blocks = pre ++ h :: post ∧ VolHeader h ∧ (∀ b ∈ post, ¬ VolHeader b) ∧ isOld = !h.flags.testBit 4) ∨
    ((∀ b ∈ blocks, ¬ VolHeader b) ∧ isOld = false)

end Rescene.Spec
