import Verif.Lemmas.MkvFrames
/-
The tracks of a main file.
-/
namespace Rescene
open Spec

/-- A track has a description. -/
def Described (parts : List MkvPart) (n : Nat) : Prop := ∃ size data, .leaf trackNumberId size data ∈ parts ∧ ofBe data = n

/-- What is known of the tracks of a main file after some parts. -/
structure MainInv (done : List MkvPart) (mains : List (Nat × Bytes)) (cur : Nat) (strip : Bool) : Prop where
  curOf : cur = (done.foldl stripStep {}).cur
  stripOf : strip = (done.foldl stripStep {}).strip
  known : ∀ n, Described done n → movGet mains n = some ((done.foldl stripStep {}).settings n)
  other : ∀ n, ¬ Described done n → movGet mains n = none ∧ (done.foldl stripStep {}).settings n = []
  number : (∃ size data, .leaf trackNumberId size data ∈ done) → Described done cur

theorem mainInv_nil : MainInv [] [] 0 false := ⟨rfl, rfl, by rintro n ⟨_, _, h, _⟩; simp at h, fun _ _ => ⟨rfl, rfl⟩, by rintro ⟨_, _, h⟩; simp at h⟩

/-- Parts that are not about tracks. -/
theorem mainInv_same {done ps : List MkvPart} {mains : List (Nat × Bytes)} {cur : Nat} {strip : Bool} (h : MainInv done mains cur strip)
    (hp : ∀ p ∈ ps, (∀ s, stripStep s p = s) ∧ ∀ size data, p ≠ .leaf trackNumberId size data) : MainInv (done ++ ps) mains cur strip := by
  have hf : (done ++ ps).foldl stripStep {} = done.foldl stripStep {} := by
    rw [List.foldl_append, strip_none fun p h => (hp p h).1]
  have hd : ∀ n, Described (done ++ ps) n ↔ Described done n := by
    intro n
    constructor
    · rintro ⟨size, data, hm, e⟩
      rcases List.mem_append.1 hm with hm | hm
      · exact ⟨size, data, hm, e⟩
      · exact absurd rfl ((hp _ hm).2 size data)
    · rintro ⟨size, data, hm, e⟩
      exact ⟨size, data, by simp [hm], e⟩
  refine ⟨by rw [hf]; exact h.curOf, by rw [hf]; exact h.stripOf, fun n hn => by rw [hf]; exact h.known n ((hd n).1 hn),
    fun n hn => by rw [hf]; exact h.other n fun hh => hn ((hd n).2 hh), ?_⟩
  rintro ⟨size, data, hm⟩
  rw [hd]
  rcases List.mem_append.1 hm with hm | hm
  · exact h.number ⟨size, data, hm⟩
  · exact absurd rfl ((hp _ hm).2 size data)

theorem mainItem_other {mains : List (Nat × Bytes)} {cur : Nat} {strip : Bool} {id data : Bytes}
    (h : id ∉ [trackNumberId, compAlgoId, compSettingsId]) : mkvMainItem mains cur strip id data = .ok (mains, cur, strip) := by
  simp only [List.mem_cons, List.not_mem_nil, or_false, not_or] at h
  unfold mkvMainItem
  rw [if_neg (show ¬ id = eTrackNumber from h.1), if_neg (show ¬ id = eCompAlgorithm from h.2.1), if_neg (show ¬ id = eCompSettings from h.2.2)]

/-- A leaf about a track. -/
theorem main_step {done : List MkvPart} {mains : List (Nat × Bytes)} {cur : Nat} {strip : Bool} (h : MainInv done mains cur strip)
    {id size data : Bytes} (hid : id ∈ [trackNumberId, compAlgoId, compSettingsId]) (hu : id ∈ [trackNumberId, compAlgoId] → PlainUInt data)
    (hn : id ∈ [compressionId, codecId, compAlgoId, compSettingsId] → ∃ size data, .leaf trackNumberId size data ∈ done) :
    ∃ mains' cur' strip', mkvMainItem mains cur strip id data = .ok (mains', cur', strip') ∧
      MainInv (done ++ [.leaf id size data]) mains' cur' strip' := by
  have hdesc : ∀ n, id ≠ trackNumberId → (Described (done ++ [.leaf id size data]) n ↔ Described done n) := by
    intro n hne
    constructor
    · rintro ⟨sz, d, hm, e⟩
      rcases List.mem_append.1 hm with hm | hm
      · exact ⟨sz, d, hm, e⟩
      · rw [List.mem_singleton, MkvPart.leaf.injEq] at hm
        exact absurd hm.1.symm hne
    · rintro ⟨sz, d, hm, e⟩
      exact ⟨sz, d, by simp [hm], e⟩
  have hnum : id ≠ trackNumberId → (∃ sz d, .leaf trackNumberId sz d ∈ done ++ [.leaf id size data]) → ∃ sz d, .leaf trackNumberId sz d ∈ done := by
    rintro hne ⟨sz, d, hm⟩
    rcases List.mem_append.1 hm with hm | hm
    · exact ⟨sz, d, hm⟩
    · rw [List.mem_singleton, MkvPart.leaf.injEq] at hm
      exact absurd hm.1.symm hne
  simp only [List.mem_cons, List.not_mem_nil, or_false] at hid
  rcases hid with rfl | rfl | rfl
  · -- the number
    have hfold : (done ++ [MkvPart.leaf trackNumberId size data]).foldl stripStep {} = { done.foldl stripStep {} with cur := ofBe data } := by
      rw [List.foldl_append, List.foldl_cons, List.foldl_nil, stripStep_leaf, if_pos rfl]
    have hd : ∀ n, Described (done ++ [.leaf trackNumberId size data]) n ↔ Described done n ∨ n = ofBe data := by
      intro n
      constructor
      · rintro ⟨sz, d, hm, e⟩
        rcases List.mem_append.1 hm with hm | hm
        · exact Or.inl ⟨sz, d, hm, e⟩
        · rw [List.mem_singleton, MkvPart.leaf.injEq] at hm
          exact Or.inr (by rw [← e, hm.2.2])
      · rintro (⟨sz, d, hm, e⟩ | e)
        · exact ⟨sz, d, by simp [hm], e⟩
        · exact ⟨size, data, by simp, e.symm⟩
    refine ⟨if (movGet mains (ofBe data)).isSome then mains else dictPut mains (ofBe data) [], ofBe data, strip, ?_, ?_⟩
    · unfold mkvMainItem
      rw [if_pos (show trackNumberId = eTrackNumber from rfl), uint_read (hu (by simp)), ok_bind]
      rfl
    · refine ⟨by rw [hfold], by rw [hfold]; exact h.stripOf, ?_, ?_, fun _ => (hd _).2 (Or.inr rfl)⟩
      · intro n hn2
        rw [hfold]
        dsimp only
        by_cases hdo : Described done (ofBe data)
        · rw [if_pos (by rw [h.known _ hdo]; rfl)]
          rcases (hd n).1 hn2 with h3 | rfl
          · exact h.known n h3
          · exact h.known _ hdo
        · rw [if_neg (by rw [(h.other _ hdo).1]; simp), movGet_dictPut]
          split
          · rename_i e
            rw [← e] at hdo
            rw [(h.other _ hdo).2]
          · rename_i e
            rcases (hd n).1 hn2 with h3 | h3
            · exact h.known n h3
            · exact absurd h3 e
      · intro n hn2
        rw [hfold]
        dsimp only
        have h3 : ¬ Described done n ∧ n ≠ ofBe data := by
          constructor
          · intro h3; exact hn2 ((hd n).2 (Or.inl h3))
          · intro h3; exact hn2 ((hd n).2 (Or.inr h3))
        refine ⟨?_, (h.other n h3.1).2⟩
        split
        · exact (h.other n h3.1).1
        · rw [movGet_dictPut, if_neg h3.2]
          exact (h.other n h3.1).1
  · -- the algorithm
    have hfold : (done ++ [MkvPart.leaf compAlgoId size data]).foldl stripStep {} = { done.foldl stripStep {} with strip := ofBe data == 3 } := by
      rw [List.foldl_append, List.foldl_cons, List.foldl_nil, stripStep_leaf, if_neg (by decide), if_pos rfl]
    refine ⟨mains, cur, ofBe data == 3, ?_, ?_⟩
    · unfold mkvMainItem
      rw [if_neg (by decide), if_pos (show compAlgoId = eCompAlgorithm from rfl), uint_read (hu (by simp)), ok_bind]
      rfl
    · refine ⟨by rw [hfold]; exact h.curOf, by rw [hfold], ?_, ?_, ?_⟩
      · intro n hn2
        rw [hfold]
        exact h.known n ((hdesc n (by decide)).1 hn2)
      · intro n hn2
        rw [hfold]
        exact h.other n fun h3 => hn2 ((hdesc n (by decide)).2 h3)
      · intro h3
        exact (hdesc _ (by decide)).2 (h.number (hnum (by decide) h3))
  · -- the settings
    have hcur : Described done cur := h.number (hn (by simp))
    have hfold : (done ++ [MkvPart.leaf compSettingsId size data]).foldl stripStep {} =
        if strip then { done.foldl stripStep {} with settings := fun n => if n = cur then data else (done.foldl stripStep {}).settings n }
        else done.foldl stripStep {} := by
      rw [List.foldl_append, List.foldl_cons, List.foldl_nil, stripStep_leaf, if_neg (by decide), if_neg (by decide), h.stripOf, h.curOf]
      by_cases hs : (done.foldl stripStep {}).strip = true
      · rw [if_pos ⟨rfl, hs⟩, if_pos hs]
      · rw [if_neg (fun h => hs h.2), if_neg hs]
    refine ⟨if strip then dictPut mains cur data else mains, cur, strip, ?_, ?_⟩
    · unfold mkvMainItem
      rw [if_neg (by decide), if_neg (by decide), if_pos (show compSettingsId = eCompSettings from rfl)]
      by_cases hs : strip = true
      · rw [if_pos hs, if_pos hs, if_pos (by rw [h.known _ hcur]; rfl)]
      · rw [if_neg hs, if_neg hs]
    · refine ⟨?_, ?_, ?_, ?_, ?_⟩
      · rw [hfold]; split <;> exact h.curOf
      · rw [hfold]; split <;> exact h.stripOf
      · intro n hn2
        have h3 := h.known n ((hdesc n (by decide)).1 hn2)
        rw [hfold]
        split
        · rw [movGet_dictPut]
          dsimp only
          split
          · rfl
          · exact h3
        · exact h3
      · intro n hn2
        have h3 : ¬ Described done n := fun h3 => hn2 ((hdesc n (by decide)).2 h3)
        have h4 : n ≠ cur := by rintro rfl; exact h3 hcur
        rw [hfold]
        split
        · rw [movGet_dictPut, if_neg h4]
          dsimp only
          rw [if_neg h4]
          exact h.other n h3
        · exact h.other n h3
      · intro _
        exact (hdesc _ (by decide)).2 hcur

end Rescene
