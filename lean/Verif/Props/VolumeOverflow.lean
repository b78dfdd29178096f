import Verif.Props.Volumes
/-
C27: what follows the last numbered volume.
-/
namespace Rescene.Props
open Rescene Rescene.Spec

/-- C27, violation: behind the volume `.999` the next name has a slash in place of the dot: it is a file `000` in a folder with the name of
the set, for every set. -/
theorem next_num_overflow (dig : Nat → Bool) (hd : DigOk dig) (base : Str) (isOld : Bool) (hb : 0x0A ∉ base) :
    nextArchive dig (numVol base 999) isOld = .ok (base ++ str "/000") := by
  have he : numVol base 999 = (base ++ str ".99") ++ [0x39] := by simp [numVol, digits, str]
  have hlow := lower_digit (c := 0x39) (by decide)
  unfold nextArchive
  rw [if_neg, if_neg, if_neg]
  · have h3 : incRev ((str ".999").reverse ++ base.reverse) = some ((base ++ str "/000").reverse) := by
      simp [str, incRev]
    have : numVol base 999 = base ++ str ".999" := by simp [numVol, digits, str]
    rw [this, incName_append h3 (by simp [str]), List.reverse_reverse]
  · rw [Bool.not_eq_false, isRar_iff]
    have h9 : dig 0x39 = true := digOk_digit hd (by decide)
    exact ⟨base, [0x39, 0x39, 0x39], [], by rw [he]; simp [str], hb, Or.inr (Or.inr ⟨_, _, _, rfl, h9, h9, h9⟩), Or.inl rfl⟩
  · rw [he, dotRar_false_of_last hlow.1 hlow.2]; simp
  · rw [he, partRx_false_of_last hlow.1 hlow.2]; simp

/-- The name is the one of a file in another folder. -/
example : basename (str "/rel/set" ++ str "/000") = str "000" ∧ basename (numVol (str "/rel/set") 999) = str "set.999" := by decide

end Rescene.Props
