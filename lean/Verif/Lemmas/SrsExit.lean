import Verif.Model.SrsExit
import Verif.Lemmas.Str
/-
Lemmas about the text of the exceptions of srs.py.
-/
namespace Rescene

/-- `srsFault`'s first step, character by character. -/
def lineStrip : Bool → Str → Str
  | _, [] => []
  | b, c :: t => if c = 10 then 10 :: lineStrip true t else if b = true ∧ pySpace c = true then lineStrip true t else c :: lineStrip false t

theorem lineStrip_join (s : Str) :
    (joinWith 10 ((splitOn 10 s).map fun l => l.dropWhile pySpace) = lineStrip true s) ∧
      ∀ p ps, splitOn 10 s = p :: ps → joinWith 10 (p :: ps.map fun l => l.dropWhile pySpace) = lineStrip false s := by
  induction s with
  | nil => simp [splitOn, joinWith, lineStrip]
  | cons c t ih =>
    obtain ⟨ih1, ih2⟩ := ih
    cases hs : splitOn 10 t with
    | nil => exact absurd hs (splitOn_ne_nil _ _)
    | cons p ps =>
      have ih2 := ih2 p ps hs
      rw [hs] at ih1
      simp only [List.map_cons] at ih1
      by_cases hc : c = 10
      · subst hc
        have hsp : splitOn 10 (10 :: t) = [] :: p :: ps := by simp [splitOn, hs]
        refine ⟨?_, ?_⟩
        · rw [hsp]; simp [joinWith, lineStrip, ih1]
        · intro p' ps' h
          rw [hsp] at h
          injection h with h1 h2
          subst h1; subst h2
          simp [joinWith, lineStrip, ih1]
      · have hsp : splitOn 10 (c :: t) = (c :: p) :: ps := by simp [splitOn, hs, hc]
        have hcons : ∀ (a : Nat) (x : Str) (l : List Str), joinWith 10 ((a :: x) :: l) = a :: joinWith 10 (x :: l) := by
          intro a x l; cases l <;> simp [joinWith]
        refine ⟨?_, ?_⟩
        · rw [hsp]
          simp only [List.map_cons, List.dropWhile_cons, lineStrip, if_neg hc]
          by_cases hw : pySpace c = true
          · rw [if_pos hw, if_pos ⟨trivial, hw⟩, ih1]
          · rw [if_neg hw, if_neg (fun h => hw h.2), hcons, ih2]
        · intro p' ps' h
          rw [hsp] at h
          injection h with h1 h2
          subst h1; subst h2
          rw [hcons, ih2]
          simp [lineStrip, hc]

theorem lineStrip_append (b : Bool) (a t : Str) : ∃ x b', lineStrip b (a ++ t) = x ++ lineStrip b' t := by
  induction a generalizing b with
  | nil => exact ⟨[], b, rfl⟩
  | cons c a ih =>
    simp only [List.cons_append, lineStrip]
    split
    · obtain ⟨x, b', h⟩ := ih true; exact ⟨10 :: x, b', by rw [h]; rfl⟩
    · split
      · exact ih true
      · obtain ⟨x, b', h⟩ := ih false; exact ⟨c :: x, b', by rw [h]; rfl⟩

theorem lineStrip_mid (b : Bool) (a : Str) {c : Nat} (v : Str) (hc : pySpace c = false) :
    ∃ x, lineStrip b (a ++ c :: v) = x ++ c :: lineStrip false v := by
  obtain ⟨x, b', h⟩ := lineStrip_append b a (c :: v)
  have h10 : c ≠ 10 := by rintro rfl; exact absurd hc (by decide)
  exact ⟨x, by rw [h]; simp [lineStrip, h10, hc]⟩

theorem rstripBy_append {f : Nat → Bool} {y z : Str} (h : rstripBy f z ≠ []) : rstripBy f (y ++ z) = y ++ rstripBy f z := by
  have hz : z.reverse.dropWhile f ≠ [] := by intro h0; exact h (by simp [rstripBy, h0])
  simp only [rstripBy, List.reverse_append]
  rw [List.dropWhile_append]
  rw [if_neg (by simpa using hz), List.reverse_append, List.reverse_reverse]

theorem dropWhile_mid {f : Nat → Bool} (x : Str) {c : Nat} (v : Str) (hc : f c = false) :
    ∃ y, (x ++ c :: v).dropWhile f = y ++ c :: v := by
  induction x with
  | nil => exact ⟨[], by simp [hc]⟩
  | cons a x ih =>
    simp only [List.cons_append, List.dropWhile_cons]
    split
    · exact ih
    · exact ⟨a :: x, rfl⟩

/-- The end of a text, from a character that is no space, is kept but for the dots and newlines after it. -/
theorem srsFault_tail (a : Str) {c : Nat} {v z : Str} (hc : pySpace c = false)
    (hz : rstripBy (· == 46) (rstripBy (· == 10) (c :: lineStrip false v)) = z) (hne : z ≠ []) :
    ∃ y, srsFault (a ++ c :: v) = y ++ z := by
  obtain ⟨x, hx⟩ := lineStrip_mid true a v hc
  have h10 : c ≠ 10 := by rintro rfl; exact absurd hc (by decide)
  obtain ⟨y, hy⟩ := dropWhile_mid (f := (· == 10)) x (lineStrip false v) (by simpa using h10)
  have h1 : rstripBy (· == 10) (c :: lineStrip false v) ≠ [] := by
    intro h0; rw [h0] at hz; exact hne (by rw [← hz]; rfl)
  refine ⟨y, ?_⟩
  unfold srsFault
  simp only [(lineStrip_join (a ++ c :: v)).1, hx, hy]
  rw [rstripBy_append h1, rstripBy_append (by rw [hz]; exact hne), hz, if_neg (by simp [hne])]

theorem not_aborting {y z : Str} {c : Nat} (hz : z.getLast? = some c) (hc : c ≠ 103) : ¬ str "Aborting" <:+ y ++ z := by
  rintro ⟨t, ht⟩
  have h := congrArg List.getLast? ht
  rw [List.getLast?_append, List.getLast?_append, hz] at h
  have hg : (str "Aborting").getLast? = some 103 := by decide
  rw [hg] at h
  simp at h
  exact hc h.symm

end Rescene
