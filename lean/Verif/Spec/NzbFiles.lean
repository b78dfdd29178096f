import Verif.Model.NzbFiles
import Verif.Lemmas.Regex
/-
What is said about the files of an NZB (C98), apart from the code.
-/
namespace Rescene.Spec
open Rescene

/-- No two neighbours are of the kind. -/
def Apart {α : Type} (p : α → Bool) : List α → Prop
  | [] => True
  | [_] => True
  | a :: b :: t => ¬ (p a = true ∧ p b = true) ∧ Apart p (b :: t)

/-- `ich12.part3.rar`: the letters in either case, any character for the dots, and anything after it. -/
def RepackName (dig : Nat → Bool) (who name : Str) : Prop :=
  ∃ a d c p d' c' r rest, name = a ++ d ++ [c] ++ p ++ d' ++ [c'] ++ r ++ rest ∧ CiEq a who ∧ CiEq p (str "part") ∧ CiEq r (str "rar") ∧
    d ≠ [] ∧ (∀ x ∈ d, dig x = true) ∧ d' ≠ [] ∧ (∀ x ∈ d', dig x = true) ∧ c ≠ 0x0A ∧ c' ≠ 0x0A

/-- The names of repacks: those of two groups, those with the name of a site in it, and those of twenty random
characters. -/
def Repacked (dig : Nat → Bool) (name : Str) : Prop :=
  RepackName dig (str "ich") name ∨ RepackName dig (str "zed") name ∨ str "kere.ws" <:+: name ∨
  ∃ x e, name = x ++ e ∧ x.length = 20 ∧ e.length = 4 ∧ lowerStr e = str ".rar" ∧ ∀ c ∈ x, plainChar c = true

/-- A posted file with an extension of files that are stored. -/
def StoredExt (f : NzbFile) : Prop :=
  ∃ b e, f.name = b ++ e ∧ e.length = 4 ∧ lowerStr e ∈ [str ".nfo", str ".jpg", str ".png", str ".bmp", str ".srs"]

/-- An SFV file. -/
def SfvExt (f : NzbFile) : Prop := ∃ b e, f.name = b ++ e ∧ e.length = 4 ∧ lowerStr e = str ".sfv"

/-- Images that do not belong to the release, and the NFO files of sites. -/
def UnwantedPost (f : NzbFile) : Prop :=
  str "_s.jpg" <:+ f.name ∨ f.name = str "UsenetSpaceCowboys.nfo" ∨ f.name = str "_newzNZB.nfo" ∨
  (str ".jpg" <:+ f.name ∧ ¬ str "proof" <:+: lowerStr f.name ∧
    ((f.parts.map (·.2)).sum < 9000 ∨ str "-thumb.jpg" <:+: f.name ∨ str "_poster.jpg" <:+: f.name ∨ str "_s.jpg" <:+: f.name)) ∨
  (str ".png" <:+ f.name ∧ f.size = 592451)

/-- The words in the names of SFV files that come last. -/
def SaysLast (f : NzbFile) : Prop :=
  str "extras" <:+: lowerStr f.name ∨ str "proof" <:+: lowerStr f.name ∨ str "sample" <:+: lowerStr f.name ∨ str "subpack" <:+: lowerStr f.name

/-- An SFV file says at least as much as another one: it has more entries, or as many and at least as many comments. -/
def SaysMore (f g : NzbFile) : Prop := ∃ e c e' c', f.sfv = some (e, c) ∧ g.sfv = some (e', c') ∧ (e' < e ∨ (e' = e ∧ c' ≤ c))

end Rescene.Spec
