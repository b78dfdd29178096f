import Verif.Model.Paths
import Verif.Spec.Paths
import Verif.Lemmas.Str
namespace Rescene
open Spec

theorem illegalElem_false {e : Str} : illegalElem e = false ↔ PlainElem e := by
  have hdev : e = str "/dev/null" → 0x2F ∈ e := by rintro rfl; decide
  simp only [illegalElem, PlainElem, hasSlash, Bool.or_eq_false_iff, beq_eq_false_iff_ne, ne_eq,
    List.contains_eq_mem, decide_eq_false_iff_not]
  constructor
  · rintro ⟨⟨⟨⟨h1, h2⟩, h3⟩, h4⟩, h5⟩; exact ⟨h2, h3, h4, h1⟩
  · rintro ⟨h1, h2, h3, h4⟩; exact ⟨⟨⟨⟨h4, h1⟩, h2⟩, h3⟩, fun h => h4 (hdev h)⟩

theorem head_ne_of_not_mem {e : Str} {c : Nat} (h : c ∉ e) : e.head? ≠ some c := by
  intro hc; exact h (List.mem_of_mem_head? (by rw [hc]; simp))

theorem last_ne_of_not_mem {e : Str} {c : Nat} (h : c ∉ e) : e.getLast? ≠ some c := by
  intro hc; exact h (List.mem_of_mem_getLast? (by rw [hc]; simp))

theorem getLast?_append_ne {a b : Str} (h : b ≠ []) : (a ++ b).getLast? = b.getLast? := by
  rw [List.getLast?_append]
  cases hb : b.getLast? with
  | none => rw [List.getLast?_eq_none_iff] at hb; exact absurd hb h
  | some x => rfl

theorem foldl_posixJoin2 {ps : List Str} (h : ∀ e ∈ ps, PlainElem e) (a : Str) (ha : a ≠ [])
    (hl : a.getLast? ≠ some 0x2F) :
    ps.foldl posixJoin2 a = joinWith 0x2F (a :: ps) := by
  induction ps generalizing a with
  | nil => rfl
  | cons e ps ih =>
    have he := h e (by simp)
    have e1 : posixJoin2 a e = a ++ 0x2F :: e := by
      unfold posixJoin2
      rw [if_neg (head_ne_of_not_mem he.2.2.2), if_neg (by simp [ha, hl])]
    simp only [List.foldl_cons, e1]
    have hlast : (a ++ 0x2F :: e).getLast? ≠ some 0x2F := by
      have : a ++ 0x2F :: e = (a ++ [0x2F]) ++ e := by simp
      rw [this, getLast?_append_ne he.1]
      exact last_ne_of_not_mem he.2.2.2
    rw [ih (fun x hx => h x (by simp [hx])) _ (by simp) hlast]
    cases ps <;> simp [joinWith]

/-- Joining plain elements puts a "/" between them. -/
theorem posixJoin_nil {ps : List Str} (h : ∀ e ∈ ps, PlainElem e) : posixJoin [] ps = joinWith 0x2F ps := by
  cases ps with
  | nil => rfl
  | cons e ps =>
    have he := h e (by simp)
    have e1 : posixJoin2 [] e = e := by
      unfold posixJoin2
      rw [if_neg (head_ne_of_not_mem he.2.2.2)]; simp
    unfold posixJoin
    rw [List.foldl_cons, e1]
    exact foldl_posixJoin2 (fun x hx => h x (by simp [hx])) e he.1 (last_ne_of_not_mem he.2.2.2)

theorem joinpath_ok_iff {ps : List Str} {r : Str} :
    joinpath ps [] = .ok r ↔ (∀ e ∈ ps, PlainElem e) ∧ r = joinWith 0x2F ps := by
  unfold joinpath
  split
  · rename_i h
    simp only [List.any_eq_true] at h
    obtain ⟨e, he, hi⟩ := h
    constructor
    · intro h; simp at h
    · rintro ⟨h, _⟩
      have := illegalElem_false.mpr (h e he)
      rw [this] at hi; simp at hi
  · rename_i h
    have hp : ∀ e ∈ ps, PlainElem e := by
      intro e he
      rw [← illegalElem_false]
      cases hi : illegalElem e with
      | false => rfl
      | true => exact absurd (List.any_eq_true.mpr ⟨e, he, hi⟩) h
    rw [posixJoin_nil hp]
    constructor
    · intro h; simp at h; exact ⟨hp, h.symm⟩
    · rintro ⟨_, rfl⟩; rfl

theorem walk_append (d : List Str) (a b : List Str) : walk d (a ++ b) = walk (walk d a) b := by
  induction a generalizing d with
  | nil => rfl
  | cons c a ih =>
    simp only [List.cons_append, walk]
    split
    · exact ih d
    · split <;> exact ih _

theorem walk_plain {d : List Str} {ps : List Str} (h : ∀ e ∈ ps, PlainElem e) : walk d ps = d ++ ps := by
  induction ps generalizing d with
  | nil => simp [walk]
  | cons e ps ih =>
    have he := h e (by simp)
    simp only [walk]
    rw [if_neg (by simp [he.1, he.2.1]), if_neg he.2.2.1, ih (fun x hx => h x (by simp [hx]))]
    simp

theorem joinWith_head {sep : Nat} {p : Str} {ps : List Str} (h : p ≠ []) :
    (joinWith sep (p :: ps)).head? = p.head? := by
  cases p with
  | nil => exact absurd rfl h
  | cons c p => cases ps <;> simp [joinWith]

/-- `splitOn` of a path followed by a separator. -/
theorem splitOn_append (sep : Nat) (a b : Str) :
    splitOn sep (a ++ sep :: b) = splitOn sep a ++ splitOn sep b := by
  induction a with
  | nil => simp [splitOn]
  | cons c a ih =>
    simp only [List.cons_append, splitOn]
    split
    · simp [ih]
    · rw [ih]
      cases hs : splitOn sep a with
      | nil => exact absurd hs (splitOn_ne_nil _ _)
      | cons x xs => simp

theorem walk_base (cwd : List Str) (base : Str) (rel : List Str) (hb : base ≠ [])
    (h : ∀ e ∈ rel, PlainElem e) (hne : rel ≠ []) :
    place cwd (posixJoin base [joinWith 0x2F rel]) = place cwd base ++ rel := by
  obtain ⟨e, rel, rfl⟩ : ∃ e r, rel = e :: r := by
    cases rel with
    | nil => exact absurd rfl hne
    | cons e r => exact ⟨e, r, rfl⟩
  have he := h e (by simp)
  have hhead : (joinWith 0x2F (e :: rel)).head? ≠ some 0x2F := by
    rw [joinWith_head he.1]; exact head_ne_of_not_mem he.2.2.2
  have hsplit : splitOn 0x2F (joinWith 0x2F (e :: rel)) = e :: rel :=
    splitOn_joinWith (by simp) (fun p hp => (h p hp).2.2.2)
  simp only [posixJoin, List.foldl_cons, List.foldl_nil]
  unfold posixJoin2
  rw [if_neg hhead]
  have hbh : ∀ x, (base ++ x).head? = base.head? := by
    intro x; cases base with
    | nil => exact absurd rfl hb
    | cons c t => rfl
  by_cases hl : base.getLast? = some 0x2F
  · rw [if_pos (Or.inr hl)]
    obtain ⟨b', rfl⟩ : ∃ b', base = b' ++ [0x2F] := by
      obtain ⟨ys, hys⟩ := List.getLast?_eq_some_iff.mp hl
      exact ⟨ys, hys⟩
    unfold place
    rw [hbh]
    have e1 : b' ++ [0x2F] ++ joinWith 0x2F (e :: rel) = b' ++ 0x2F :: joinWith 0x2F (e :: rel) := by simp
    rw [e1, splitOn_append, hsplit, walk_append, splitOn_append, walk_append, walk_plain h]
    simp [splitOn, walk]
  · rw [if_neg (by simp [hb, hl])]
    unfold place
    rw [hbh, splitOn_append, hsplit, walk_append, walk_plain h]

/-- The elements of a normalised path denote the same place. -/
theorem normComps_walk (initial : Bool) (dir : List Str) (hdir : initial = true → dir = []) :
    ∀ (cs acc : List Str), (∀ c ∈ acc, c ≠ [] ∧ c ≠ [0x2E]) →
      (∀ l c d r, acc = l ++ c :: d :: r → c = [0x2E, 0x2E] → d = [0x2E, 0x2E]) →
      (initial = true → ∀ c ∈ acc, c ≠ [0x2E, 0x2E]) →
      walk dir (normComps initial acc cs) = walk (walk dir acc.reverse) cs := by
  intro cs
  induction cs with
  | nil => intro acc _ _ _; simp [normComps, walk]
  | cons c cs ih =>
    intro acc h1 h2 h3
    unfold normComps
    split
    · rename_i hc
      rw [ih acc h1 h2 h3]
      conv => rhs; rw [walk, if_pos hc]
    · rename_i hc
      split
      · rename_i hcond
        rw [ih (c :: acc)]
        · rw [List.reverse_cons, walk_append]
          have : walk (walk dir acc.reverse) (c :: cs) = walk (walk (walk dir acc.reverse) [c]) cs := by
            rw [← walk_append (walk dir acc.reverse)]; rfl
          rw [this]
        · intro x hx
          rcases List.mem_cons.mp hx with rfl | hx
          · simpa using hc
          · exact h1 x hx
        · intro l x d r he hx
          cases l with
          | nil =>
            simp only [List.nil_append, List.cons.injEq] at he
            obtain ⟨rfl, rfl⟩ := he
            rcases hcond with h | h | h
            · exact absurd hx h
            · simp at h
            · simpa using h
          | cons y l =>
            simp only [List.cons_append, List.cons.injEq] at he
            exact h2 l x d r he.2 hx
        · intro hi x hx
          rcases List.mem_cons.mp hx with rfl | hx
          · rcases hcond with h | h | h
            · exact h
            · rw [hi] at h; simp at h
            · exfalso
              cases hacc : acc with
              | nil => simp [hacc] at h
              | cons y t =>
                simp [hacc] at h
                exact h3 hi y (by simp [hacc]) h
          · exact h3 hi x hx
      · rename_i hcond
        have hcond' : c = [0x2E, 0x2E] ∧ ¬ (initial = false ∧ acc = []) ∧ acc.head? ≠ some [0x2E, 0x2E] := by
          refine ⟨?_, ?_, ?_⟩
          · by_cases h : c = [0x2E, 0x2E]
            · exact h
            · exact absurd (Or.inl h) hcond
          · exact fun h => hcond (Or.inr (Or.inl h))
          · exact fun h => hcond (Or.inr (Or.inr h))
        obtain ⟨hcd, hni, hh⟩ := hcond'
        rw [ih acc.tail (fun x hx => h1 x (List.mem_of_mem_tail hx))
          (fun l x d r he hx => by
            cases acc with
            | nil => simp at he
            | cons y t =>
              simp only [List.tail_cons] at he
              exact h2 (y :: l) x d r (by simp [he]) hx)
          (fun hi x hx => h3 hi x (List.mem_of_mem_tail hx))]
        have : walk (walk dir acc.reverse) (c :: cs) = walk (walk dir acc.reverse).dropLast cs := by
          rw [walk, if_neg hc, if_pos hcd]
        rw [this]
        congr 1
        cases hacc : acc with
        | nil =>
          have hi : initial = true := by
            cases hib : initial with
            | true => rfl
            | false => exact absurd ⟨hib, hacc⟩ hni
          simp [walk, hdir hi]
        | cons y t =>
          have hy1 := h1 y (by simp [hacc])
          have hy2 : y ≠ [0x2E, 0x2E] := by intro h; exact hh (by simp [hacc, h])
          simp only [List.tail_cons, List.reverse_cons, walk_append, walk]
          rw [if_neg (by simp [hy1]), if_neg hy2]
          simp

theorem splitOn_slashes (s : Str) (d : List Str) :
    walk d (splitOn 0x2F (0x2F :: s)) = walk d (splitOn 0x2F s) := by
  simp [splitOn, walk]

theorem mem_normComps {initial : Bool} {cs acc : List Str} {x : Str} (h : x ∈ normComps initial acc cs) :
    x ∈ acc ∨ (x ∈ cs ∧ x ≠ []) := by
  induction cs generalizing acc with
  | nil => simp [normComps] at h; exact Or.inl h
  | cons c cs ih =>
    unfold normComps at h
    split at h
    · rcases ih h with h | ⟨h, h'⟩
      · exact Or.inl h
      · exact Or.inr ⟨by simp [h], h'⟩
    · rename_i hc
      split at h
      · rcases ih h with h | ⟨h, h'⟩
        · rcases List.mem_cons.mp h with rfl | h
          · exact Or.inr ⟨by simp, fun h => hc (Or.inl h)⟩
          · exact Or.inl h
        · exact Or.inr ⟨by simp [h], h'⟩
      · rcases ih h with h | ⟨h, h'⟩
        · exact Or.inl (List.mem_of_mem_tail h)
        · exact Or.inr ⟨by simp [h], h'⟩

theorem joinWith_walk (d : List Str) {ps : List Str} (h : ∀ p ∈ ps, 0x2F ∉ p) :
    walk d (splitOn 0x2F (joinWith 0x2F ps)) = walk d ps := by
  cases ps with
  | nil => simp [joinWith, splitOn, walk]
  | cons p ps => rw [splitOn_joinWith (by simp) h]

theorem normpath_ne_nil (p : Str) : normpath p ≠ [] := by
  unfold normpath
  split
  · simp
  · have key : ∀ x : Str, (if x = [] then ([0x2E] : Str) else x) ≠ [] := by
      intro x; split
      · simp
      · assumption
    exact key _

/-- `normpath` does not change the place a path denotes. -/
theorem place_normpath (cwd : List Str) (p : Str) : place cwd (normpath p) = place cwd p := by
  unfold normpath
  split
  · rename_i h; subst h; simp [place, splitOn, walk]
  · rename_i hne
    obtain ⟨comps, hcomps⟩ : ∃ c, c = normComps (p.head? == some 0x2F) [] (splitOn 0x2F p) := ⟨_, rfl⟩
    have hmem : ∀ x ∈ comps, 0x2F ∉ x ∧ x ≠ [] := by
      intro x hx
      rw [hcomps] at hx
      rcases mem_normComps hx with h | h
      · simp at h
      · exact ⟨not_mem_of_mem_splitOn h.1, h.2⟩
    have hns : ∀ x ∈ comps, 0x2F ∉ x := fun x hx => (hmem x hx).1
    have hhead : (joinWith 0x2F comps).head? ≠ some 0x2F := by
      cases hc : comps with
      | nil => simp [joinWith]
      | cons x t =>
        have := hmem x (by simp [hc])
        rw [joinWith_head this.2]
        exact head_ne_of_not_mem this.1
    simp only [← hcomps]
    by_cases hi : p.head? = some 0x2F
    · have hw : walk [] comps = walk [] (splitOn 0x2F p) := by
        rw [hcomps, normComps_walk _ [] (fun _ => rfl) _ [] (by simp) (by simp) (by simp)]
        simp [walk]
      have hp : place cwd p = walk [] (splitOn 0x2F p) := by simp [place, hi]
      have hib : (p.head? == some 0x2F) = true := by simp [hi]
      rw [hp, ← hw]
      simp only [hib, if_true]
      split
      · rw [if_neg (by simp)]
        simp only [place, List.cons_append, List.nil_append, List.head?_cons, if_true, splitOn_slashes]
        exact joinWith_walk _ hns
      · rw [if_neg (by simp)]
        simp only [place, List.cons_append, List.nil_append, List.head?_cons, if_true, splitOn_slashes]
        exact joinWith_walk _ hns
    · have hib : (p.head? == some 0x2F) = false := by simp [hi]
      have hw : walk cwd comps = walk cwd (splitOn 0x2F p) := by
        rw [hcomps, hib, normComps_walk _ cwd (by simp) _ [] (by simp) (by simp) (by simp)]
        simp [walk]
      have hp : place cwd p = walk cwd (splitOn 0x2F p) := by simp [place, hi]
      rw [hp, ← hw]
      simp only [hib, Bool.false_eq_true, if_false, List.nil_append]
      split
      · rename_i h
        have : walk cwd (splitOn 0x2F (joinWith 0x2F comps)) = walk cwd comps := joinWith_walk _ hns
        rw [h] at this
        rw [← this]
        simp [place, splitOn, walk]
      · simp only [place, hhead, if_false]
        exact joinWith_walk _ hns

end Rescene
