import Verif.Spec.AutoStore
import Verif.Lemmas.Release
namespace Rescene
open Spec

/-! ### Names of SRS files -/

theorem stem_dot {a e : Str} (he : 0x2E ∉ e) : stem (a ++ 0x2E :: e) = a := by
  unfold stem
  rw [if_pos (by simp)]
  have : ((a ++ 0x2E :: e).reverse.dropWhile (· ≠ 0x2E)) = 0x2E :: a.reverse := by
    rw [List.reverse_append, List.reverse_cons, List.append_assoc]
    have : ∀ l : Str, 0x2E ∉ l → (l ++ ([0x2E] ++ a.reverse)).dropWhile (· ≠ 0x2E) = 0x2E :: a.reverse := by
      intro l hl
      induction l with
      | nil => simp
      | cons c l ih =>
        simp only [List.mem_cons, not_or] at hl
        rw [List.cons_append, List.dropWhile_cons, if_pos (by simp; omega)]
        exact ih hl.2
    exact this _ (by simpa using he)
  rw [this]
  simp

theorem runs_head (x : Str) (l : List Str) : ∃ n r, runs (x :: l) = (x, n) :: r ∧ n ≥ 1 := by
  rw [runs]
  split
  · split
    · rename_i h; subst h; exact ⟨_, _, rfl, by omega⟩
    · exact ⟨1, _, rfl, by omega⟩
  · exact ⟨1, [], rfl, by omega⟩

theorem runs_adj (l : List Str) (s : Str) : (∃ n, n > 1 ∧ (s, n) ∈ runs l) ↔ ∃ a b, l = a ++ s :: s :: b := by
  induction l with
  | nil => simp [runs]
  | cons x l ih =>
    cases l with
    | nil =>
      simp only [runs, List.mem_singleton, Prod.mk.injEq]
      constructor
      · rintro ⟨n, h1, _, rfl⟩; omega
      · rintro ⟨a, b, h⟩
        have := congrArg List.length h
        simp at this
        omega
    | cons y l =>
      obtain ⟨n, r, hr, hn⟩ := runs_head y l
      rw [runs, hr]
      simp only
      by_cases e : x = y
      · subst e
        rw [if_pos rfl]
        constructor
        · rintro ⟨m, h1, h2⟩
          rcases List.mem_cons.1 h2 with h2 | h2
          · simp only [Prod.mk.injEq] at h2
            exact ⟨[], l, by rw [h2.1]; rfl⟩
          · obtain ⟨a, b, h⟩ := ih.1 ⟨m, h1, by rw [hr]; simp [h2]⟩
            exact ⟨x :: a, b, by rw [h]; rfl⟩
        · rintro ⟨a, b, h⟩
          cases a with
          | nil =>
            simp only [List.nil_append, List.cons.injEq] at h
            exact ⟨n + 1, by omega, by rw [h.1]; simp⟩
          | cons c a =>
            simp only [List.cons_append, List.cons.injEq] at h
            obtain ⟨m, h1, h2⟩ := ih.2 ⟨a, b, h.2⟩
            rw [hr] at h2
            rcases List.mem_cons.1 h2 with h2 | h2
            · simp only [Prod.mk.injEq] at h2
              exact ⟨n + 1, by omega, by rw [h2.1]; simp⟩
            · exact ⟨m, h1, by simp [h2]⟩
      · rw [if_neg e, ← hr]
        constructor
        · rintro ⟨m, h1, h2⟩
          rcases List.mem_cons.1 h2 with h2 | h2
          · simp only [Prod.mk.injEq] at h2
            omega
          · obtain ⟨a, b, h⟩ := ih.1 ⟨m, h1, h2⟩
            exact ⟨x :: a, b, by rw [h]; rfl⟩
        · rintro ⟨a, b, h⟩
          cases a with
          | nil =>
            simp only [List.nil_append, List.cons.injEq] at h
            exact absurd (h.1.trans h.2.1.symm) e
          | cons c a =>
            simp only [List.cons_append, List.cons.injEq] at h
            obtain ⟨m, h1, h2⟩ := ih.2 ⟨a, b, h.2⟩
            exact ⟨m, h1, by simp [h2]⟩

theorem sameNames_iff (media : List Str) (s : Str) : (sameSrsNames media).contains s = true ↔ ∃ a b, media.map stem = a ++ s :: s :: b := by
  rw [← runs_adj, List.contains_iff_mem]
  unfold sameSrsNames
  rw [List.mem_map]
  constructor
  · rintro ⟨⟨x, n⟩, h, rfl⟩
    rw [List.mem_filter, decide_eq_true_eq] at h
    exact ⟨n, h.2, h.1⟩
  · rintro ⟨n, h1, h2⟩
    exact ⟨(s, n), List.mem_filter.2 ⟨h2, decide_eq_true h1⟩, rfl⟩

/-- Two samples with the same stem, when such samples follow each other. -/
theorem together_same {media : List Str} (h : Together media) {a b : Str} (ha : a ∈ media) (hb : b ∈ media) (hne : a ≠ b) (hs : stem a = stem b) :
    (sameSrsNames media).contains (stem a) = true := by
  rw [sameNames_iff]
  -- one of them comes first
  have key : ∀ x y : Str, stem x = stem y → (∃ p q r, media = p ++ x :: (q ++ y :: r)) → ∃ a b, media.map stem = a ++ stem x :: stem x :: b := by
    rintro x y he ⟨p, q, r, hm⟩
    have hq := h p x q y r hm he
    refine ⟨p.map stem, ?_⟩
    cases q with
    | nil => exact ⟨r.map stem, by rw [hm]; simp [he]⟩
    | cons z q =>
      refine ⟨q.map stem ++ stem y :: r.map stem, ?_⟩
      rw [hm]
      simp [hq z (by simp)]
  obtain ⟨p, q, hm⟩ := List.append_of_mem ha
  rw [hm] at hb
  rcases List.mem_append.1 hb with hb | hb
  · obtain ⟨p', q', rfl⟩ := List.append_of_mem hb
    rw [hs]
    exact key b a hs.symm ⟨p', q', q, by rw [hm]; simp⟩
  · rcases List.mem_cons.1 hb with hb | hb
    · exact absurd hb.symm hne
    · obtain ⟨p', q', rfl⟩ := List.append_of_mem hb
      exact key a b hs ⟨p, p', q', hm⟩

/-! ### Sorting -/

theorem strLe_total (a b : Str) : strLe a b = true ∨ strLe b a = true := by
  induction a generalizing b with
  | nil => left; rfl
  | cons x a ih =>
    cases b with
    | nil => right; rfl
    | cons y b =>
      simp only [strLe, Bool.or_eq_true, decide_eq_true_eq, Bool.and_eq_true, beq_iff_eq]
      rcases Nat.lt_trichotomy x y with h | h | h
      · exact Or.inl (Or.inl h)
      · rcases ih b with h' | h'
        · exact Or.inl (Or.inr ⟨h, h'⟩)
        · exact Or.inr (Or.inr ⟨h.symm, h'⟩)
      · exact Or.inr (Or.inl h)

theorem strLe_trans {a b c : Str} (h1 : strLe a b = true) (h2 : strLe b c = true) : strLe a c = true := by
  induction a generalizing b c with
  | nil => rfl
  | cons x a ih =>
    cases b with
    | nil => simp [strLe] at h1
    | cons y b =>
      cases c with
      | nil => simp [strLe] at h2
      | cons z c =>
        simp only [strLe, Bool.or_eq_true, decide_eq_true_eq, Bool.and_eq_true, beq_iff_eq] at h1 h2 ⊢
        rcases h1 with h1 | ⟨h1, h1'⟩
        · rcases h2 with h2 | ⟨h2, _⟩
          · left; omega
          · left; omega
        · rcases h2 with h2 | ⟨h2, h2'⟩
          · left; omega
          · right; exact ⟨by omega, ih h1' h2'⟩

theorem strLe_antisymm {a b : Str} (h1 : strLe a b = true) (h2 : strLe b a = true) : a = b := by
  induction a generalizing b with
  | nil =>
    cases b with
    | nil => rfl
    | cons => simp [strLe] at h2
  | cons x a ih =>
    cases b with
    | nil => simp [strLe] at h1
    | cons y b =>
      simp only [strLe, Bool.or_eq_true, decide_eq_true_eq, Bool.and_eq_true, beq_iff_eq] at h1 h2
      rcases h1 with h1 | ⟨h1, h1'⟩
      · rcases h2 with h2 | ⟨h2, _⟩ <;> omega
      · rcases h2 with h2 | ⟨h2, h2'⟩
        · omega
        · rw [h1, ih h1' h2']

theorem insertOn_sorted {α : Type} (x : Str × α) {l : List (Str × α)} (h : l.Pairwise fun a b => strLe a.1 b.1 = true) :
    (insertOn x l).Pairwise fun a b => strLe a.1 b.1 = true := by
  induction l with
  | nil => simp [insertOn]
  | cons y l ih =>
    rw [List.pairwise_cons] at h
    simp only [insertOn]
    split
    · rename_i hxy
      rw [List.pairwise_cons, List.pairwise_cons]
      refine ⟨?_, h⟩
      intro z hz
      rcases List.mem_cons.1 hz with rfl | hz
      · exact hxy
      · exact strLe_trans hxy (h.1 z hz)
    · rename_i hxy
      rw [List.pairwise_cons]
      refine ⟨?_, ih h.2⟩
      intro z hz
      rcases List.mem_cons.1 ((insertOn_perm x l).mem_iff.1 hz) with rfl | hz
      · rcases strLe_total z.1 y.1 with h' | h'
        · exact absurd h' hxy
        · exact h'
      · exact h.1 z hz

theorem sortOn_sorted {α : Type} (l : List (Str × α)) : (sortOn l).Pairwise fun a b => strLe a.1 b.1 = true := by
  induction l with
  | nil => simp [sortOn]
  | cons x l ih => exact insertOn_sorted x ih

theorem insertOn_filter {α : Type} (k : Str) (x : Str × α) {l : List (Str × α)} (h : l.Pairwise fun a b => strLe a.1 b.1 = true) :
    (insertOn x l).filter (fun a => a.1 == k) = (x :: l).filter fun a => a.1 == k := by
  induction l with
  | nil => rfl
  | cons y l ih =>
    rw [List.pairwise_cons] at h
    simp only [insertOn]
    split
    · rfl
    · rename_i hxy
      rw [List.filter_cons, ih h.2]
      by_cases hx : x.1 = k
      · have hy : y.1 ≠ k := by
          intro hy
          rw [hx, hy] at hxy
          rcases strLe_total k k with h' | h' <;> exact hxy h'
        simp [List.filter_cons, hy]
      · simp [List.filter_cons, hx]

/-- Sorting is stable. -/
theorem sortOn_filter {α : Type} (k : Str) (l : List (Str × α)) : (sortOn l).filter (fun a => a.1 == k) = l.filter fun a => a.1 == k := by
  induction l with
  | nil => rfl
  | cons x l ih =>
    rw [sortOn, insertOn_filter k x (sortOn_sorted l), List.filter_cons, List.filter_cons, ih]

/-! ### Removing and moving -/

theorem foldl_erase {l : List Str} (h : l.Nodup) (r : List Str) : r.foldl List.erase l = l.filter fun x => !r.contains x := by
  induction r generalizing l with
  | nil => exact (List.filter_eq_self.2 (by simp)).symm
  | cons y r ih =>
    rw [List.foldl_cons, ih (h.erase y), h.erase_eq_filter, List.filter_filter]
    apply List.filter_congr
    intro x _
    simp only [List.contains_cons, Bool.not_or]
    rw [Bool.and_comm]
    rfl

theorem insertIdx_sub (l : List Str) (f : Str) (i : Nat) : l.Sublist (l.insertIdx i f) := by
  induction l generalizing i with
  | nil => exact List.nil_sublist _
  | cons x l ih =>
    cases i with
    | zero => exact List.sublist_cons_self f _
    | succ i => rw [List.insertIdx_succ_cons]; exact (ih i).cons_cons x

theorem pair_insert {a b f : Str} {l : List Str} (i : Nat) (h : [a, b].Sublist l) : [a, b].Sublist (l.insertIdx i f) :=
  h.trans (insertIdx_sub l f i)

theorem pair_erase {a b f : Str} {l : List Str} (ha : f ≠ a) (hb : f ≠ b) (h : [a, b].Sublist l) : [a, b].Sublist (l.erase f) := by
  have := h.erase f
  rwa [List.erase_of_not_mem (by simp [ha, hb])] at this

/-- Moving one file: nothing is lost, it comes before its SFV file, and other pairs keep their order. -/
theorem moveOne_spec {lower : Str → Str} {l : List Str} {f s : Str} (hu : (l.map lower).Nodup) (hf : f ∈ l) (hs : s ∈ l) (hne : s ≠ f)
    (h : SfvOf lower f s) : ∃ l', moveOne lower l f = .ok l' ∧ l'.Perm l ∧ [f, s].Sublist l' ∧
      ∀ a b, f ≠ a → f ≠ b → [a, b].Sublist l → [a, b].Sublist l' := by
  have hs' : s ∈ l.erase f := (List.mem_erase_of_ne hne).2 hs
  obtain ⟨p, q, hpq⟩ := List.append_of_mem hs'
  have hu' : ((l.erase f).map lower).Nodup := hu.sublist (List.erase_sublist.map lower)
  have hnot : ∀ x ∈ p, lower x ≠ sfvBeside lower f := by
    intro x hx e
    rw [hpq, List.map_append, List.map_cons, List.nodup_append] at hu'
    exact hu'.2.2 (lower x) (List.mem_map.2 ⟨x, hx, rfl⟩) (lower s) (by simp) (e.trans h.symm)
  have hidx : ((l.erase f).map lower).idxOf? (sfvBeside lower f) = some p.length := by
    rw [hpq, List.map_append, List.map_cons]
    clear hpq hs' hu'
    induction p with
    | nil =>
      have : lower s = sfvBeside lower f := h
      rw [List.map_nil, List.nil_append, this, List.length_nil, List.idxOf?_cons]
      simp
    | cons x p ih =>
      have hx : lower x ≠ sfvBeside lower f := hnot x (by simp)
      rw [List.map_cons, List.cons_append, List.idxOf?_cons, ih fun y hy => hnot y (by simp [hy])]
      simp [hx]
  have hres : (l.erase f).insertIdx p.length f = p ++ f :: s :: q := by
    rw [hpq]
    clear hpq hs' hu' hidx hnot
    induction p with
    | nil => rfl
    | cons x p ih => rw [List.cons_append, List.length_cons, List.insertIdx_succ_cons, ih]; rfl
  refine ⟨(l.erase f).insertIdx p.length f, ?_, ?_, ?_, ?_⟩
  · simp only [moveOne, hidx]
  · have h1 : (p ++ f :: s :: q).Perm (f :: (p ++ s :: q)) := List.perm_middle
    rw [hres]
    refine h1.trans ?_
    rw [← hpq]
    exact (List.perm_cons_erase hf).symm
  · rw [hres]
    have : [f, s].Sublist (f :: s :: q) := List.Sublist.cons_cons f (List.Sublist.cons_cons s (List.nil_sublist q))
    exact this.trans (List.sublist_append_right p _)
  · intro a b ha hb hab
    exact pair_insert _ (pair_erase ha hb hab)

/-- Moving all of them. -/
theorem moves_spec {lower : Str → Str} (sfv : Str → Str) (mv : List Str) : ∀ l : List Str, (l.map lower).Nodup → mv.Nodup →
    (∀ f ∈ mv, f ∈ l ∧ sfv f ∈ l ∧ sfv f ∉ mv ∧ SfvOf lower f (sfv f)) →
    ∃ l', mv.foldlM (moveOne lower) l = .ok l' ∧ l'.Perm l ∧ (∀ f ∈ mv, [f, sfv f].Sublist l') ∧
      ∀ a b, a ∉ mv → b ∉ mv → [a, b].Sublist l → [a, b].Sublist l' := by
  induction mv with
  | nil =>
    intro l _ _ _
    exact ⟨l, rfl, List.Perm.refl l, by simp, fun _ _ _ _ h => h⟩
  | cons f mv ih =>
    intro l hu hd hm
    rw [List.nodup_cons] at hd
    obtain ⟨h1, h2, h3, h4⟩ := hm f (by simp)
    have hne : sfv f ≠ f := fun e => h3 (by rw [e]; simp)
    obtain ⟨l1, e1, p1, b1, k1⟩ := moveOne_spec hu h1 h2 hne h4
    have hu1 : (l1.map lower).Nodup := (p1.map lower).nodup_iff.2 hu
    obtain ⟨l2, e2, p2, b2, k2⟩ := ih l1 hu1 hd.2 (by
      intro g hg
      obtain ⟨g1, g2, g3, g4⟩ := hm g (by simp [hg])
      exact ⟨p1.mem_iff.2 g1, p1.mem_iff.2 g2, fun hc => g3 (by simp [hc]), g4⟩)
    refine ⟨l2, ?_, p2.trans p1, ?_, ?_⟩
    · rw [List.foldlM_cons, e1]
      exact e2
    · intro g hg
      rcases List.mem_cons.1 hg with rfl | hg
      · exact k2 _ _ hd.1 (fun hc => h3 (by simp [hc])) b1
      · exact b2 g hg
    · intro a b ha hb hab
      simp only [List.mem_cons, not_or] at ha hb
      exact k2 a b ha.2 hb.2 (k1 a b (Ne.symm ha.1) (Ne.symm hb.1) hab)

/-- The loop over the files to skip. -/
theorem skips_ok {named rx : Str → Bool} (fs : List Str) : ∀ l : List Str, l.Nodup → fs.Nodup → (∀ f ∈ fs, f ∈ l) →
    (∀ f ∈ fs, ¬ (named f = true ∧ rx f = true)) →
    fs.foldlM (skipOne named rx) l = .ok (l.filter fun x => !(fs.contains x && (named x || rx x))) := by
  induction fs with
  | nil => intro l _ _ _ _; exact congrArg Except.ok (List.filter_eq_self.2 (by simp)).symm
  | cons f fs ih =>
    intro l hl hd hm hn
    rw [List.nodup_cons] at hd
    have hf := hm f (by simp)
    have h1 : skipOne named rx l f = .ok (l.filter fun x => !(x == f && (named x || rx x))) := by
      unfold skipOne removeItem
      have hc : l.contains f = true := List.contains_iff_mem.2 hf
      by_cases a : named f = true
      · have b : rx f = false := by
          rw [← Bool.not_eq_true]
          exact fun b => hn f (by simp) ⟨a, b⟩
        simp only [a, if_true, hc, ok_bind, b, Bool.false_eq_true, if_false]
        rw [hl.erase_eq_filter]
        congr 1
        apply List.filter_congr
        intro x _
        by_cases e : x = f
        · subst e; simp [a]
        · have e2 : (x == f) = false := beq_eq_false_iff_ne.2 e
          simp only [bne, e2, Bool.false_and]
      · rw [Bool.not_eq_true] at a
        by_cases b : rx f = true
        · simp only [a, Bool.false_eq_true, if_false, ok_bind, b, if_true, hc]
          rw [hl.erase_eq_filter]
          congr 1
          apply List.filter_congr
          intro x _
          by_cases e : x = f
          · subst e; simp [b]
          · have e2 : (x == f) = false := beq_eq_false_iff_ne.2 e
            simp only [bne, e2, Bool.false_and]
        · rw [Bool.not_eq_true] at b
          simp only [a, Bool.false_eq_true, if_false, ok_bind, b]
          congr 1
          refine (List.filter_eq_self.2 ?_).symm
          intro x _
          by_cases e : x = f
          · subst e; simp [a, b]
          · simp [e]
    rw [List.foldlM_cons, h1, ok_bind, ih _ (hl.filter _) hd.2]
    · rw [List.filter_filter]
      congr 1
      apply List.filter_congr
      intro x _
      by_cases e : x = f
      · subst e
        cases h : (named x || rx x) <;> simp
      · simp [e]
    · intro g hg
      rw [List.mem_filter]
      refine ⟨hm g (by simp [hg]), ?_⟩
      have : g ≠ f := fun e => hd.1 (e ▸ hg)
      simp [this]
    · intro g hg
      exact hn g (by simp [hg])

theorem map_nodup_inj {lower : Str → Str} {l : List Str} (h : (l.map lower).Nodup) : ∀ a ∈ l, ∀ b ∈ l, lower a = lower b → a = b := by
  induction l with
  | nil => simp
  | cons x l ih =>
    rw [List.map_cons, List.nodup_cons] at h
    intro a ha b hb e
    rcases List.mem_cons.1 ha with rfl | ha' <;> rcases List.mem_cons.1 hb with rfl | hb'
    · rfl
    · exact absurd (List.mem_map.2 ⟨b, hb', e.symm⟩) h.1
    · exact absurd (List.mem_map.2 ⟨a, ha', e⟩) h.1
    · exact ih h.2 a ha' b hb' e

/-- The loop over the files to skip stops when a file is to be skipped twice. -/
theorem skips_err {named rx : Str → Bool} (fs : List Str) : ∀ l : List Str, l.Nodup → fs.Nodup → (∀ f ∈ fs, f ∈ l) →
    (∃ f ∈ fs, named f = true ∧ rx f = true) → fs.foldlM (skipOne named rx) l = .error .valueError := by
  induction fs with
  | nil => intro l _ _ _ h; simp at h
  | cons f fs ih =>
    intro l hl hd hm hn
    rw [List.nodup_cons] at hd
    have hf := hm f (by simp)
    have hc : l.contains f = true := List.contains_iff_mem.2 hf
    by_cases hb : named f = true ∧ rx f = true
    · have : skipOne named rx l f = .error .valueError := by
        unfold skipOne removeItem
        have h2 : (l.erase f).contains f = false := by
          rw [← Bool.not_eq_true, List.contains_iff_mem, hl.mem_erase_iff]
          simp
        simp only [hb.1, hb.2, if_true, hc, ok_bind, h2, Bool.false_eq_true, if_false]
      rw [List.foldlM_cons, this]
      rfl
    · have h1 := skips_ok (named := named) (rx := rx) [f] l hl (by simp) (by simpa using hf) (by simpa using hb)
      have h1 : skipOne named rx l f = .ok (l.filter fun x => !([f].contains x && (named x || rx x))) := by
        rw [← h1, List.foldlM_cons]
        cases skipOne named rx l f <;> rfl
      rw [List.foldlM_cons, h1, ok_bind, ih _ (hl.filter _) hd.2]
      · intro g hg
        rw [List.mem_filter]
        refine ⟨hm g (by simp [hg]), ?_⟩
        have : g ≠ f := fun e => hd.1 (e ▸ hg)
        simp [this]
      · obtain ⟨g, hg, h⟩ := hn
        rcases List.mem_cons.1 hg with rfl | hg
        · exact absurd h hb
        · exact ⟨g, hg, h⟩

end Rescene
