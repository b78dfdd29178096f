import Verif.Lemmas.AutoFind
/-
Lemmas about names: extensions, zeros and groups.
-/
namespace Rescene
open Spec

theorem noZeros_iff (s r : Str) : NoZeros s r ↔ r = stripZeros s := by
  have hz : ∀ z ∈ zeros, ∀ t : Str, stripZeros (str z ++ t) = t := by
    intro z hz t
    simp only [zeros, List.mem_cons, List.not_mem_nil, or_false] at hz
    rcases hz with rfl | rfl | rfl | rfl | rfl | rfl | rfl | rfl | rfl | rfl | rfl | rfl <;> rfl
  have key : NoZeros s (stripZeros s) := by
    by_cases h : ∃ z ∈ zeros, str z <+: s
    · obtain ⟨z, hz1, t, rfl⟩ := h
      rw [hz z hz1]
      exact Or.inl ⟨z, hz1, rfl⟩
    · have hno : ∀ z ∈ zeros, ¬ str z <+: s := fun z hz hp => h ⟨z, hz, hp⟩
      refine Or.inr ⟨hno, ?_⟩
      unfold stripZeros
      rw [if_neg, if_neg, if_neg]
      all_goals
        intro hc
        rw [List.any_eq_true] at hc
        obtain ⟨z, hz, hp⟩ := hc
        rw [List.isPrefixOf_iff_prefix] at hp
        refine hno z ?_ hp
        simp only [List.mem_cons, List.not_mem_nil, or_false] at hz
        simp only [zeros, List.mem_cons, List.not_mem_nil, or_false]
        rcases hz with rfl | rfl | rfl | rfl <;> simp
  constructor
  · rintro (⟨z, hz1, rfl⟩ | ⟨hno, rfl⟩)
    · exact (hz z hz1 r).symm
    · rcases key with ⟨z, hz1, e⟩ | ⟨_, e⟩
      · exact absurd ⟨_, e.symm⟩ (hno z hz1)
      · exact e.symm
  · rintro rfl; exact key

theorem lastPart_iff (s r : Str) : LastPart s r ↔ r = afterHyphen s := by
  have h1 : ∀ s r, LastPart s r → r = afterHyphen s := by
    rintro s r ⟨hr, rfl | ⟨a, rfl⟩⟩
    · simp [afterHyphen, splitOn_of_not_mem hr]
    · simp [afterHyphen, splitOn_append, splitOn_of_not_mem hr]
  refine ⟨h1 s r, ?_⟩
  rintro rfl
  by_cases h : 0x2D ∈ s
  · obtain ⟨b, a, e, hb⟩ := List.eq_append_cons_of_mem (List.mem_reverse.2 h)
    have e' := congrArg List.reverse e
    simp only [List.reverse_reverse, List.reverse_append, List.reverse_cons, List.append_assoc, List.singleton_append] at e'
    have hl : LastPart s b.reverse := ⟨by simpa using hb, Or.inr ⟨a.reverse, e'⟩⟩
    rw [← h1 s _ hl]
    exact hl
  · have hl : LastPart s s := ⟨h, Or.inl rfl⟩
    rw [← h1 s _ hl]
    exact hl

theorem hasStem_unique {p r r' : Str} (h : HasStem p r) (h' : HasStem p r') : r = r' := by
  obtain ⟨e, rfl, he, -, -⟩ := h
  obtain ⟨e', e2, he', -, -⟩ := h'
  have e3 := congrArg List.reverse e2
  simp only [List.reverse_append, List.reverse_cons, List.append_assoc, List.singleton_append] at e3
  have key : ∀ (a b u v : Str), 0x2E ∉ a → 0x2E ∉ b → a ++ 0x2E :: u = b ++ 0x2E :: v → u = v := by
    intro a
    induction a with
    | nil =>
      intro b u v _ hb h
      cases b with
      | nil => simpa using h
      | cons y b => simp at h hb; exact absurd h.1 hb.1
    | cons x a ih =>
      intro b u v ha hb h
      cases b with
      | nil => simp at h ha; exact absurd h.1.symm ha.1
      | cons y b =>
        simp only [List.mem_cons, not_or, List.cons_append, List.cons.injEq] at *
        exact ih b u v ha.2 hb.2 h.2
  have := key _ _ _ _ (by simpa using he) (by simpa using he') e3
  simpa using this

theorem base_split (p : Str) : ∃ d, p = d ++ basename p ∧ 0x2F ∉ basename p ∧ (d = [] ∨ d.getLast? = some 0x2F) := by
  by_cases h : 0x2F ∈ p
  · obtain ⟨a, b, rfl, hb⟩ := last_slash h
    refine ⟨a ++ [0x2F], ?_, ?_, Or.inr (by simp)⟩
    all_goals
      unfold basename
      rw [splitOn_append, splitOn_of_not_mem hb]
      simp [hb]
  · refine ⟨[], ?_, ?_, Or.inl rfl⟩
    all_goals
      unfold basename
      rw [splitOn_of_not_mem h]
      simp [h]

theorem base_app {d b : Str} (hb : 0x2F ∉ b) (hd : d = [] ∨ d.getLast? = some 0x2F) : basename (d ++ b) = b := by
  rcases hd with rfl | hd
  · unfold basename; rw [List.nil_append, splitOn_of_not_mem hb]; rfl
  · obtain ⟨a, rfl⟩ : ∃ a, d = a ++ [0x2F] := by
      rcases List.eq_nil_or_concat d with rfl | ⟨a, x, rfl⟩
      · simp at hd
      · simp at hd; exact ⟨a, by simp [hd]⟩
    unfold basename
    rw [List.append_assoc, List.singleton_append, splitOn_append, splitOn_of_not_mem hb]
    simp

theorem rootOf_stem (p : Str) : Stem p (rootOf p) := by
  obtain ⟨d, hp, hb, hd⟩ := base_split p
  obtain ⟨b, hbe⟩ : ∃ b, b = basename p := ⟨_, rfl⟩
  rw [← hbe] at hp hb
  by_cases hs : ∃ r, HasStem p r
  · obtain ⟨r, hr⟩ := hs
    have hr0 := hr
    obtain ⟨e, he, h1, h2, c, hc, hc2⟩ := hr
    refine Or.inl ?_
    -- the name is what is left of the stem, a dot and the extension
    obtain ⟨d', hp', hb', hd'⟩ := base_split r
    have hbr : basename p = basename r ++ 0x2E :: e := by
      rw [he]
      have : r ++ 0x2E :: e = d' ++ (basename r ++ 0x2E :: e) := by rw [← List.append_assoc, ← hp']
      rw [this]
      exact base_app (by simp [hb', h2]) hd'
    have hext : extOf p = 0x2E :: e := by
      unfold extOf
      have hrev : (basename p).reverse = e.reverse ++ 0x2E :: (basename r).reverse := by rw [hbr]; simp
      have ht : (e.reverse ++ 0x2E :: (basename r).reverse).takeWhile (· != 0x2E) = e.reverse := by
        rw [List.takeWhile_append_of_pos (by intro x hx; simp only [bne_iff_ne, ne_eq]; rintro rfl; exact h1 (List.mem_reverse.1 hx))]
        simp
      have hdw : (e.reverse ++ 0x2E :: (basename r).reverse).dropWhile (· != 0x2E) = 0x2E :: (basename r).reverse := by
        rw [List.dropWhile_append_of_pos (by intro x hx; simp only [bne_iff_ne, ne_eq]; rintro rfl; exact h1 (List.mem_reverse.1 hx))]
        simp
      dsimp only
      rw [hrev, ht, hdw]
      dsimp only
      rw [if_pos]
      · simp
      · rw [List.any_eq_true]
        exact ⟨c, by simpa using hc, by simpa using hc2⟩
    have : rootOf p = r := by
      unfold rootOf
      rw [hext, he]
      simp
    rw [this]
    exact hr0
  · refine Or.inr ⟨fun r hr => hs ⟨r, hr⟩, ?_⟩
    have hext : extOf p = [] := by
      unfold extOf
      dsimp only
      rw [← hbe]
      split
      · rfl
      · rename_i x front hdw
        split
        · rename_i hany
          exfalso
          rw [List.any_eq_true] at hany
          obtain ⟨c, hc, hc2⟩ := hany
          have hsplit := List.takeWhile_append_dropWhile (p := fun x => x != 0x2E) (l := b.reverse)
          have hx : x = 0x2E := by
            have := List.head?_dropWhile_not (fun x => x != 0x2E) b.reverse
            rw [hdw] at this
            simpa using this
          rw [hdw, hx] at hsplit
          obtain ⟨e, hee⟩ : ∃ e, e = List.takeWhile (fun x => x != 0x2E) b.reverse := ⟨_, rfl⟩
          have hne : 0x2E ∉ e := by
            intro hm
            rw [hee] at hm
            have hall := List.all_takeWhile (p := fun x => x != 0x2E) (l := b.reverse)
            rw [List.all_eq_true] at hall
            simpa using hall _ hm
          rw [← hee] at hsplit
          have hb2 : b = front.reverse ++ 0x2E :: e.reverse := by
            have := congrArg List.reverse hsplit
            simpa using this.symm
          refine hs ⟨d ++ front.reverse, e.reverse, ?_, by simpa using hne, ?_, c, ?_, by simpa using hc2⟩
          · rw [hp, hb2]; simp
          · intro hm; apply hb; rw [hb2]; simp [List.mem_reverse.1 hm]
          · rw [base_app _ hd]
            · simpa using hc
            · intro hm; apply hb; rw [hb2]; simp [List.mem_reverse.1 hm]
        · rfl
    unfold rootOf
    rw [hext]
    simp

theorem stem_iff (p r : Str) : Stem p r ↔ r = rootOf p := by
  have key := rootOf_stem p
  constructor
  · rintro (h | ⟨hno, rfl⟩)
    · rcases key with h' | ⟨hno, _⟩
      · exact hasStem_unique h h'
      · exact absurd h (hno r)
    · rcases key with h' | ⟨_, e⟩
      · exact absurd h' (hno _)
      · exact e.symm
  · rintro rfl; exact key

theorem alwaysSkip_iff (lower : Str → Str) (f : Str) : alwaysSkip lower f = true ↔ Personal lower f := by
  unfold alwaysSkip Personal
  simp only [Bool.or_eq_true, List.contains_eq_mem, decide_eq_true_eq, isIn_iff, List.isPrefixOf_iff_prefix, endsWith, List.isSuffixOf_iff_suffix, stem_iff,
    exists_eq_left, or_assoc]

theorem proofWord_iff (lower : Str → Str) (f : Str) : proofWord (lower f) = true ↔ SaysProof lower f := by
  unfold proofWord SaysProof
  simp [PathSays, isIn_iff, or_assoc]

theorem likeName_iff (lower : Str → Str) (f bn : Str) (h : ∀ x, x <:+: f → lower x = x) : likeName lower f bn = true ↔ Alike lower bn f := by
  obtain ⟨d, hp, -, -⟩ := base_split f
  have hb : basename f <:+ f := ⟨d, hp.symm⟩
  have h1 : lower ((basename f).take 10) = (basename f).take 10 := h _ ((List.take_prefix _ _).isInfix.trans hb.isInfix)
  have h2 : lower ((stripZeros (basename f)).take 10) = (stripZeros (basename f)).take 10 := by
    refine h _ ((List.take_prefix _ _).isInfix.trans ?_)
    refine List.IsInfix.trans ?_ hb.isInfix
    unfold stripZeros
    split
    · exact (List.drop_suffix _ _).isInfix
    · split
      · exact (List.drop_suffix _ _).isInfix
      · split
        · exact (List.drop_suffix _ _).isInfix
        · exact List.infix_rfl
  have h3 : lower (rootOf f) = rootOf f := h _ (List.take_prefix _ _).isInfix
  unfold likeName Alike
  simp only [Bool.or_eq_true, beq_iff_eq, noZeros_iff, lastPart_iff, stem_iff, or_assoc]
  rw [h1]
  refine or_congr Iff.rfl (or_congr ?_ ?_)
  · constructor
    · intro e; exact ⟨_, _, rfl, rfl, by rw [h2]; exact e⟩
    · rintro ⟨_, _, rfl, rfl, e⟩; rw [h2] at e; exact e
  · constructor
    · intro e; exact ⟨_, _, rfl, rfl, by rw [h3]; exact e⟩
    · rintro ⟨_, _, rfl, rfl, e⟩; rw [h3] at e; exact e

end Rescene
