import Verif.Spec.Search
import Verif.Model.StreamSrs
import Verif.Lemmas.Bytes
namespace Rescene
open Spec

theorem occursAt_iff {sig data : Bytes} {k : Nat} :
    OccursAt sig data k ↔ k ≤ data.length ∧ sig <+: data.drop k := by
  constructor
  · rintro ⟨pre, post, rfl, rfl⟩
    refine ⟨by simp, post, by simp⟩
  · rintro ⟨h, post, hp⟩
    refine ⟨data.take k, post, ?_, by simp; omega⟩
    rw [List.append_assoc, hp, List.take_append_drop]

theorem occursAt_le {sig data : Bytes} {k : Nat} (h : OccursAt sig data k) : k + sig.length ≤ data.length := by
  obtain ⟨pre, post, rfl, rfl⟩ := h
  simp

theorem occursAt_zero {sig data : Bytes} : OccursAt sig data 0 ↔ sig <+: data := by
  rw [occursAt_iff]; simp

theorem occursAt_cons {sig t : Bytes} {h : UInt8} {k : Nat} :
    OccursAt sig (h :: t) (k + 1) ↔ OccursAt sig t k := by
  rw [occursAt_iff, occursAt_iff]; simp

/-- Occurrences in a part. -/
theorem occursAt_append_left {sig a b : Bytes} {k : Nat} :
    OccursAt sig b k → OccursAt sig (a ++ b) (a.length + k) := by
  rintro ⟨pre, post, rfl, rfl⟩
  exact ⟨a ++ pre, post, by simp, by simp⟩

theorem occursAt_append_right {sig a b : Bytes} {k : Nat} :
    OccursAt sig a k → OccursAt sig (a ++ b) k := by
  rintro ⟨pre, post, rfl, rfl⟩
  exact ⟨pre, post ++ b, by simp, rfl⟩

theorem occursAt_drop {sig a b : Bytes} {k : Nat} (hk : a.length ≤ k) (h : OccursAt sig (a ++ b) k) :
    OccursAt sig b (k - a.length) := by
  rw [occursAt_iff] at *
  refine ⟨by have := h.1; simp at this; omega, ?_⟩
  have := h.2
  rwa [List.drop_append, List.drop_eq_nil_of_le hk, List.nil_append] at this

theorem occursAt_take {sig a b : Bytes} {k : Nat} (hk : k + sig.length ≤ a.length) (h : OccursAt sig (a ++ b) k) :
    OccursAt sig a k := by
  rw [occursAt_iff] at *
  refine ⟨by omega, ?_⟩
  have h2 := h.2
  rw [List.drop_append_of_le_length (by omega)] at h2
  rw [List.prefix_iff_eq_take] at *
  rwa [List.take_append_of_le_length (by rw [List.length_drop]; omega)] at h2

theorem bfind_some {sig data : Bytes} {i : Nat} (h : bfind sig data = some i) : FirstAt sig data i := by
  induction data generalizing i with
  | nil =>
    simp only [bfind] at h
    split at h
    · simp at h; subst h; subst sig; exact ⟨⟨[], [], rfl, rfl⟩, by simp⟩
    · simp at h
  | cons x t ih =>
    simp only [bfind] at h
    split at h
    · rename_i hp
      simp at h; subst h
      exact ⟨occursAt_zero.mpr (List.isPrefixOf_iff_prefix.mp hp), by simp⟩
    · rename_i hp
      rw [Option.map_eq_some_iff] at h
      obtain ⟨j, hj, rfl⟩ := h
      obtain ⟨h1, h2⟩ := ih hj
      refine ⟨occursAt_cons.mpr h1, ?_⟩
      intro k hk
      cases k with
      | zero => exact absurd (List.isPrefixOf_iff_prefix.mpr (occursAt_zero.mp hk)) hp
      | succ k => have := h2 k (occursAt_cons.mp hk); omega

theorem bfind_none {sig data : Bytes} (h : bfind sig data = none) (k : Nat) : ¬ OccursAt sig data k := by
  induction data generalizing k with
  | nil =>
    simp only [bfind] at h
    split at h
    · simp at h
    · rename_i hs
      intro hk
      have h1 := occursAt_le hk
      have h2 : 0 < sig.length := List.length_pos_iff.mpr hs
      rw [List.length_nil] at h1; omega
  | cons x t ih =>
    simp only [bfind] at h
    split at h
    · simp at h
    · rename_i hp
      simp at h
      cases k with
      | zero => intro hk; exact hp (List.isPrefixOf_iff_prefix.mpr (occursAt_zero.mp hk))
      | succ k => intro hk; exact ih h k (occursAt_cons.mp hk)

theorem bfindFrom_some {sig data : Bytes} {s i : Nat} (h : bfindFrom sig data s = some i) :
    OccursAt sig data i ∧ s ≤ i ∧ ∀ j, s ≤ j → OccursAt sig data j → i ≤ j := by
  unfold bfindFrom at h
  split at h
  · rename_i hs
    rw [Option.map_eq_some_iff] at h
    obtain ⟨k, hk, rfl⟩ := h
    obtain ⟨h1, h2⟩ := bfind_some hk
    have e : data.take s ++ data.drop s = data := List.take_append_drop ..
    have l : (data.take s).length = s := by simp; omega
    refine ⟨?_, by omega, ?_⟩
    · have := occursAt_append_left (a := data.take s) h1
      rwa [e, l, Nat.add_comm] at this
    · intro j hj ho
      rw [← e] at ho
      have := h2 _ (occursAt_drop (by omega) ho)
      omega
  · simp at h

theorem bfindFrom_none {sig data : Bytes} {s : Nat} (h : bfindFrom sig data s = none) (j : Nat) (hj : s ≤ j) :
    ¬ OccursAt sig data j := by
  unfold bfindFrom at h
  intro ho
  split at h
  · simp at h
    have e : data.take s ++ data.drop s = data := List.take_append_drop ..
    rw [← e] at ho
    exact bfind_none h _ (occursAt_drop (by simp; omega) ho)
  · have := occursAt_le ho
    omega

/-- The search loop: `pre ++ p ++ x ++ rest` is the file. -/
theorem streamSearch_spec {r : Nat} {sig : Bytes} (hr : 0 < r) (hs : sig.length ≤ r) (fuel : Nat) :
    ∀ (pre p x rest : Bytes) (tell : Nat),
      tell = pre.length + p.length + x.length →
      (p = [] → pre = []) → (p ≠ [] → x ≠ [] → p.length = r) →
      (x = [] → rest = []) →
      (rest ≠ [] → x.length = r) →
      (∀ k, OccursAt sig (pre ++ p ++ x ++ rest) k → pre.length + p.length < k + sig.length) →
      rest.length + x.length + 1 ≤ fuel →
      ∃ m, streamSearch r sig fuel p x rest tell = .ok m ∧
        (∀ k, m = some k → FirstAt sig (pre ++ p ++ x ++ rest) k) ∧
        (m = none → ∀ k, ¬ OccursAt sig (pre ++ p ++ x ++ rest) k) := by
  induction fuel with
  | zero => intro pre p x rest tell _ _ _ _ _ _ h; omega
  | succ fuel ih =>
    intro pre p x rest tell htell hpp hpr hxr hrx hocc hf
    rw [streamSearch]
    by_cases hx : x = []
    · rw [if_pos hx]
      refine ⟨none, rfl, by simp, ?_⟩
      intro _ k hk
      have h1 := hocc k hk
      have h2 := occursAt_le hk
      rw [hxr hx, hx] at h2
      simp at h2
      omega
    · rw [if_neg hx]
      -- what the find call tells us
      have key : ∀ m, (if p = [] then bfind sig x else bfindFrom sig (p ++ x) (r - sig.length)) = m →
          (∀ i, m = some i → FirstAt sig (pre ++ p ++ x ++ rest) (pre.length + i)) ∧
          (m = none → ∀ k, OccursAt sig (pre ++ p ++ x ++ rest) k → pre.length + p.length + x.length < k + sig.length) := by
        intro m hm
        by_cases hp : p = []
        · rw [if_pos hp] at hm
          have hpre := hpp hp
          subst hp hpre
          simp only [List.nil_append, List.length_nil, Nat.zero_add]
          refine ⟨?_, ?_⟩
          · rintro i rfl
            obtain ⟨h1, h2⟩ := bfind_some hm
            refine ⟨occursAt_append_right h1, ?_⟩
            intro j hj
            have hle := occursAt_le h1
            apply Decidable.byContradiction
            intro hlt
            exact hlt (h2 j (occursAt_take (by omega) hj))
          · rintro rfl k hk
            apply Decidable.byContradiction
            intro hlt
            exact bfind_none hm k (occursAt_take (by omega) hk)
        · rw [if_neg hp] at hm
          have hpl := hpr hp hx
          have e : pre ++ p ++ x ++ rest = pre ++ ((p ++ x) ++ rest) := by simp
          -- an occurrence inside, seen from `p ++ x`
          have shift : ∀ k, OccursAt sig (pre ++ p ++ x ++ rest) k →
              k + sig.length ≤ pre.length + p.length + x.length →
              pre.length ≤ k ∧ r - sig.length ≤ k - pre.length ∧ OccursAt sig (p ++ x) (k - pre.length) := by
            intro k hk hle
            have h1 := hocc k hk
            refine ⟨by omega, by omega, ?_⟩
            rw [e] at hk
            exact occursAt_take (by simp; omega) (occursAt_drop (by omega) hk)
          refine ⟨?_, ?_⟩
          · rintro i rfl
            obtain ⟨h1, h2, h3⟩ := bfindFrom_some hm
            have hle := occursAt_le h1
            rw [List.length_append] at hle
            refine ⟨?_, ?_⟩
            · rw [e]; exact occursAt_append_left (occursAt_append_right h1)
            · intro j hj
              apply Decidable.byContradiction
              intro hlt
              obtain ⟨g1, g2, g3⟩ := shift j hj (by omega)
              have := h3 _ g2 g3
              omega
          · rintro rfl k hk
            apply Decidable.byContradiction
            intro hlt
            obtain ⟨g1, g2, g3⟩ := shift k hk (by omega)
            exact bfindFrom_none hm _ g2 g3
      simp only
      cases hm : (if p = [] then bfind sig x else bfindFrom sig (p ++ x) (r - sig.length)) with
      | some i =>
        refine ⟨_, rfl, ?_, by simp⟩
        intro k hk
        simp only [Option.some.injEq] at hk
        have := (key _ hm).1 i rfl
        rw [← hk]
        have e : tell - x.length - p.length + i = pre.length + i := by omega
        rwa [e]
      | none =>
        have hk := (key _ hm).2 rfl
        have hxl : 0 < x.length := List.length_pos_iff.mpr hx
        have e : pre ++ p ++ x ++ rest = (pre ++ p) ++ x ++ rest.take r ++ rest.drop r := by
          simp
        rw [e] at hk ⊢
        apply ih (pre ++ p) x (rest.take r) (rest.drop r)
        · simp [htell]
        · intro h; exact absurd h hx
        · intro _ ht
          apply hrx
          intro h
          exact ht (by simp [h])
        · intro h
          rcases List.take_eq_nil_iff.mp h with h | h
          · omega
          · simp [h]
        · intro h
          have : rest.length > r := by
            apply Decidable.byContradiction; intro h'; exact h (List.drop_eq_nil_of_le (by omega))
          simp; omega
        · intro k hk'
          have := hk k hk'
          simp; omega
        · simp only [List.length_take, List.length_drop]
          omega

end Rescene
