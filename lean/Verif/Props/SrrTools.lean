import Verif.Model.SrrTools
import Verif.Spec.SrrTools
import Verif.Props.Extract
import Verif.Props.Merge
import Verif.Props.InfoContents
import Verif.Props.SrsFiles
import Verif.Lemmas.Paths
/-
C101: srr_extract_srs.py.  C102: srr_merge.py.
-/
namespace Rescene.Props
open Rescene Rescene.Spec

theorem backToSlash_id {n : Str} (h : 0x5C ∉ n) : backToSlash n = n := by
  unfold backToSlash
  conv => rhs; rw [← List.map_id n]
  apply List.map_congr_left
  intro c hc
  have : c ≠ 0x5C := by rintro rfl; exact h hc
  rw [if_neg this]; rfl

theorem osName_legal {n : Str} (h : PathName n) : osFileNameSrr n = .ok (backToSlash n) := by
  unfold osFileNameSrr
  rw [joinpath_ok_iff]
  exact ⟨h, (joinWith_splitOn 0x2F _).symm⟩

theorem splitOn_ne (sep : Nat) (s : Str) : splitOn sep s ≠ [] := by
  cases s with
  | nil => simp [splitOn]
  | cons c s =>
    rw [splitOn]
    split
    · simp
    · split <;> simp

theorem legal_head {n : Str} (h : PathName n) : (backToSlash n).head? ≠ some 0x2F := by
  unfold PathName at h
  intro hh
  cases hb : backToSlash n with
  | nil => rw [hb] at hh; simp at hh
  | cons c s =>
    rw [hb] at hh h
    simp only [List.head?_cons, Option.some.injEq] at hh
    subst hh
    have := h [] (by simp [splitOn])
    exact this.1 rfl

theorem opath_legal {n : Str} (out : Str) (h : PathName n) : opath n true out = .ok (inFolder out (backToSlash n)) := by
  unfold opath
  rw [osName_legal h, ok_bind]
  rfl

theorem normComps_plain {initial : Bool} (cs : List Str) : ∀ acc : List Str, (∀ e ∈ cs, PlainElem e) →
    normComps initial acc cs = acc.reverse ++ cs := by
  induction cs with
  | nil => intro acc _; simp [normComps]
  | cons e t ih =>
    intro acc h
    have he := h e (by simp)
    rw [normComps, if_neg (by rintro (h' | h'); exact he.1 h'; exact he.2.1 h'), if_pos (Or.inl he.2.2.1),
      ih _ (fun x hx => h x (by simp [hx]))]
    simp

theorem normpath_legal {n : Str} (h : PathName n) (hb : 0x5C ∉ n) : normpath n = n := by
  have hd := legal_head h
  unfold PathName at h
  rw [backToSlash_id hb] at h hd
  have hne : n ≠ [] := by
    rintro rfl
    exact (h [] (by simp [splitOn])).1 rfl
  unfold normpath
  rw [if_neg hne]
  have h1 : (n.head? == some 0x2F) = false := by simpa using hd
  simp only [h1, Bool.false_eq_true, if_false, List.nil_append]
  rw [normComps_plain _ _ h, List.reverse_nil, List.nil_append, joinWith_splitOn, if_neg hne]

/-- The text before the stored name does not depend on it. -/
theorem inFolder_eq (out : Str) : ∃ pre : Str, (pre = [] ∨ pre.getLast? = some 0x2F) ∧
    ∀ n : Str, n.head? ≠ some 0x2F → inFolder out n = pre ++ n := by
  by_cases h : normpath out = [] ∨ (normpath out).getLast? = some 0x2F
  · refine ⟨normpath out, h, fun n hn => ?_⟩
    rw [inFolder, posixJoin2, if_neg hn, if_pos h]
  · refine ⟨normpath out ++ [0x2F], Or.inr (by simp), fun n hn => ?_⟩
    rw [inFolder, posixJoin2, if_neg hn, if_neg h, List.append_assoc]; rfl

theorem basename_after {pre n : Str} (h : pre = [] ∨ pre.getLast? = some 0x2F) : basename (pre ++ n) = basename n := by
  rcases h with rfl | h
  · rfl
  · obtain ⟨a, rfl⟩ : ∃ a, pre = a ++ [0x2F] := by
      obtain ⟨a, ha⟩ := List.getLast?_eq_some_iff.mp h
      exact ⟨a, ha⟩
    unfold basename
    rw [List.append_assoc, List.singleton_append, splitOn_append, List.getLast?_append]
    cases hx : (splitOn 0x2F n).getLast? with
    | none => rw [List.getLast?_eq_none_iff] at hx; exact absurd hx (splitOn_ne _ _)
    | some x => rfl

theorem backToSlash_suffix {n t : Str} (ht : ∀ c ∈ t, c ≠ 0x2F) (h : t <:+ backToSlash n) : t <:+ n := by
  obtain ⟨a, ha⟩ := h
  unfold backToSlash at ha
  rw [eq_comm, List.map_eq_append_iff] at ha
  obtain ⟨l1, l2, rfl, _, h2⟩ := ha
  refine ⟨l1, ?_⟩
  congr 1
  rw [← h2]
  conv => rhs; rw [← List.map_id l2]
  rw [h2]
  have : ∀ c ∈ l2, (if c = 0x5C then 0x2F else c) = c := by
    intro c hc
    have := ht (if c = 0x5C then 0x2F else c) (by rw [← h2]; exact List.mem_map_of_mem (f := fun c => if c = 0x5C then 0x2F else c) hc)
    split at this
    · exact absurd rfl this
    · rename_i hne; rw [if_neg hne]
  rw [← h2, List.map_id]
  conv => rhs; rw [← List.map_id l2]
  exact List.map_congr_left this

theorem isSrs_iff {n : Str} : endsWith n (str ".srs") = true ↔ IsSrs n := by
  unfold endsWith IsSrs
  rw [List.isSuffixOf_iff_suffix]
  exact ⟨fun ⟨s, h⟩ => ⟨s, h.symm⟩, fun ⟨s, h⟩ => ⟨s, h.symm⟩⟩

theorem srs_chars : ∀ c ∈ str ".srs", c ≠ 0x2F := by decide

/-- Asking for an SRS file selects that file, and nothing but SRS files. -/
theorem selected_srs {out n n' : Str} (hn : PathName n) (hb : 0x5C ∉ n) (hs : IsSrs n) (hn' : PathName n')
    (h : isSelected ⟨out, true, n, none⟩ n' (inFolder out (backToSlash n')) (backToSlash n') = true) : IsSrs n' := by
  have hne : n ≠ [] := by obtain ⟨s, rfl⟩ := hs; simp [str]
  have hsuf : str ".srs" <:+ n := by obtain ⟨s, rfl⟩ := hs; exact ⟨s, rfl⟩
  have key : n <:+ backToSlash n' → IsSrs n' := by
    intro hk
    rw [← isSrs_iff]
    unfold endsWith
    rw [List.isSuffixOf_iff_suffix]
    exact backToSlash_suffix srs_chars (hsuf.trans hk)
  apply key
  unfold isSelected at h
  have h0 : (n == []) = false := by simpa using hne
  simp only [h0, Bool.false_and, Bool.false_or, Bool.or_eq_true, Bool.and_eq_true, beq_iff_eq] at h
  rcases h with ⟨h1, h2⟩ | h
  · obtain ⟨pre, hpre, hp⟩ := inFolder_eq out
    rw [hp _ (legal_head hn'), basename_after hpre, ← h1] at h2
    rw [h2]
    exact basename_suffix _
  · rw [normpath_legal hn hb] at h
    rw [h]
    exact List.suffix_refl _

theorem selected_self {out n : Str} (hn : PathName n) (hb : 0x5C ∉ n) :
    isSelected ⟨out, true, n, none⟩ n (inFolder out (backToSlash n)) (backToSlash n) = true := by
  unfold isSelected
  simp [normpath_legal hn hb, backToSlash_id hb]

/-- The file an entry gives, if it is selected. -/
def chosen (a : ExtractArgs) (e : Entry) : Option (Path × Bytes) :=
  match e.kind with
  | .stored _ n => if isSelected a n (inFolder a.outFolder (backToSlash n)) (backToSlash n) then
      some (inFolder a.outFolder (backToSlash n), e.data) else none
  | _ => none

theorem selection_legal {out n : Str} (c : List Entry) (h : ∀ e ∈ c, ∀ s n, e.kind = .stored s n → PathName n) :
    selection ⟨out, true, n, none⟩ c = some (c.filterMap (chosen ⟨out, true, n, none⟩)) := by
  induction c with
  | nil => rfl
  | cons e t ih =>
    have ih := ih fun e he => h e (List.mem_cons_of_mem _ he)
    rw [List.filterMap_cons]
    cases hk : e.kind with
    | stored s m =>
      have hl := h e (by simp) s m hk
      have hch : chosen ⟨out, true, n, none⟩ e = if isSelected ⟨out, true, n, none⟩ m (inFolder out (backToSlash m)) (backToSlash m) then
          some (inFolder out (backToSlash m), e.data) else none := by
        unfold chosen; rw [hk]
      rw [selection, hch, hk]
      simp only [opath_legal _ hl, osName_legal hl, ih]
      split <;> rfl
    | _ =>
      have hch : chosen ⟨out, true, n, none⟩ e = none := by
        unfold chosen; rw [hk]
      rw [selection, hch, hk]
      exact ih

theorem split_first {q : Path} (l : List (Path × Bytes)) (h : q ∈ l.map (·.1)) :
    ∃ s1 d s2, l = s1 ++ (q, d) :: s2 ∧ q ∉ s1.map (·.1) := by
  induction l with
  | nil => simp at h
  | cons y r ih =>
    by_cases hy : y.1 = q
    · exact ⟨[], y.2, r, by rw [← hy]; rfl, by simp⟩
    · have hin' : q ∈ r.map (·.1) := by
        simp only [List.map_cons, List.mem_cons] at h
        exact h.resolve_left (fun h => hy h.symm)
      obtain ⟨s1, d, s2, h1, h2⟩ := ih hin'
      refine ⟨y :: s1, d, s2, by rw [h1]; rfl, ?_⟩
      simp only [List.map_cons, List.mem_cons, not_or]
      exact ⟨fun h => hy h.symm, h2⟩

theorem contents_stored_type {file : Bytes} {c : List Entry} (hc : Contents file c) {e : Entry} (he : e ∈ c) {s : Nat} {n : Str}
    (hk : e.kind = .stored s n) : e.isStored n := by
  obtain ⟨l, hg, hf, hl, htr⟩ := items_of_contents hc
  rw [← hl] at he
  obtain ⟨x, hx, rfl⟩ := List.mem_map.mp he
  refine ⟨?_, s, hk⟩
  apply Classical.byContradiction
  intro hb
  exact kind_stored_btype (goodItems_complete hg x hx).1 hb s n hk

theorem first_unique {c : List Entry} {n : Str} {d d' : Bytes} (h : FirstStored c n d) (h' : FirstStored c n d') : d = d' := by
  obtain ⟨c1, e, c2, rfl, he, rfl, hf⟩ := h
  obtain ⟨c1', e', c2', hc, he', rfl, hf'⟩ := h'
  rcases List.append_eq_append_iff.mp hc with ⟨a, ha, hb⟩ | ⟨a, ha, hb⟩
  · cases a with
    | nil => simp at hb; rw [hb.1]
    | cons y a =>
      rw [List.cons_append, List.cons.injEq] at hb
      subst ha
      exact absurd (hb.1 ▸ he) (hf' y (by simp))
  · cases a with
    | nil => simp at hb; rw [hb.1]
    | cons y a =>
      rw [List.cons_append, List.cons.injEq] at hb
      subst ha
      exact absurd (hb.1 ▸ he') (hf y (by simp))

theorem first_exists {c : List Entry} {e : Entry} {n : Str} (he : e ∈ c) (hs : e.isStored n) : ∃ d, FirstStored c n d := by
  induction c with
  | nil => simp at he
  | cons x t ih =>
    by_cases hx : x.isStored n
    · exact ⟨x.data, [], x, t, rfl, hx, rfl, by simp⟩
    · rcases List.mem_cons.mp he with rfl | he
      · exact absurd hs hx
      · obtain ⟨d, c1, y, c2, rfl, h2, h3, h4⟩ := ih he
        refine ⟨d, x :: c1, y, c2, rfl, h2, h3, fun e' he' => ?_⟩
        rcases List.mem_cons.mp he' with rfl | he'
        · exact hx
        · exact h4 e' he'

/-- One call of `extract_files` for an SRS file. -/
theorem extract_srs_step {srr : Path} {out n : Str} {fs : FS} {file : Bytes} {c : List Entry}
    (hs : fs srr = some file) (hc : Contents file c)
    (hlegal : ∀ e ∈ c, ∀ n, e.isStored n → PathName n)
    (hback : ∀ e ∈ c, ∀ n, e.isStored n → IsSrs n → 0x5C ∉ n)
    (hn : ∃ e ∈ c, e.isStored n) (hsrs : IsSrs n) :
    ∃ fs' rs, extractFiles srr (fun _ => false) ⟨out, true, n, none⟩ fs = (fs', .ok rs) ∧
      (∀ q, fs q ≠ none → fs' q = fs q) ∧ fs' (inFolder out n) ≠ none ∧
      ∀ q, fs' q = fs q ∨ ∃ m d, FirstStored c m d ∧ IsSrs m ∧ q = inFolder out m ∧ fs' q = some d := by
  obtain ⟨e0, he0, hs0⟩ := hn
  have hl0 := hlegal e0 he0 n hs0
  have hb0 := hback e0 he0 n hs0 hsrs
  have hlk : ∀ e ∈ c, ∀ s m, e.kind = .stored s m → PathName m := fun e he s m hk => hlegal e he m (contents_stored_type hc he hk)
  obtain ⟨fs', rs, h1, _, h3, h4⟩ := extract_result (srr := srr) (ask := fun _ => false) rfl hs hc (selection_legal (out := out) (n := n) c hlk)
  -- a path that is written
  have key : ∀ q, q ∈ (c.filterMap (chosen ⟨out, true, n, none⟩)).map (·.1) →
      ∃ m d, FirstStored c m d ∧ IsSrs m ∧ q = inFolder out m ∧ (if fs q = none then fs' q = some d else fs' q = fs q) := by
    intro q hq
    obtain ⟨s1, d, s2, hsp, hnot⟩ := split_first _ hq
    have hw := h4 s1 q d s2 hsp hnot rfl
    obtain ⟨c1, c2, rfl, e1, e2⟩ := List.filterMap_eq_append_iff.mp hsp
    obtain ⟨l1, e, l2, rfl, e3, e4, e5⟩ := List.filterMap_eq_cons_iff.mp e2
    have hec : e ∈ c1 ++ (l1 ++ e :: l2) := by simp
    unfold chosen at e4
    split at e4
    · rename_i s m hk
      split at e4
      · rename_i hsel
        simp only [Option.some.injEq, Prod.mk.injEq] at e4
        have hst := contents_stored_type hc hec hk
        have hm := hlegal e hec m hst
        have hms := selected_srs hl0 hb0 hsrs hm hsel
        have hmb := hback e hec m hst hms
        rw [backToSlash_id hmb] at e4 hsel
        have other : ∀ e' ∈ c1 ++ (l1 ++ e :: l2), e'.isStored m → chosen ⟨out, true, n, none⟩ e' = some (q, e'.data) := by
          intro e' _ hst'
          obtain ⟨_, s', hk'⟩ := hst'
          unfold chosen
          rw [hk']
          dsimp only
          rw [backToSlash_id hmb, if_pos hsel, e4.1]
        refine ⟨m, d, ⟨c1 ++ l1, e, l2, by simp, hst, e4.2, ?_⟩, hms, e4.1.symm, ?_⟩
        · intro e' he' hst'
          rcases List.mem_append.mp he' with he' | he'
          · have := other e' (List.mem_append_left _ he') hst'
            apply hnot
            rw [← e1]
            exact List.mem_map.mpr ⟨(q, e'.data), List.mem_filterMap.mpr ⟨e', he', this⟩, rfl⟩
          · have := other e' (List.mem_append_right _ (List.mem_append_left _ he')) hst'
            rw [e3 e' he'] at this
            simp at this
        · split
          · rename_i hq; rw [if_pos hq] at hw; exact hw.1
          · rename_i hq; rw [if_neg hq] at hw; exact hw.1
      · simp at e4
    · simp at e4
  refine ⟨fs', rs, h1, ?_, ?_, ?_⟩
  · intro q hq
    by_cases hm : q ∈ (c.filterMap (chosen ⟨out, true, n, none⟩)).map (·.1)
    · obtain ⟨_, _, _, _, _, h⟩ := key q hm
      rw [if_neg hq] at h
      exact h
    · exact h3 q hm
  · have hm : inFolder out n ∈ (c.filterMap (chosen ⟨out, true, n, none⟩)).map (·.1) := by
      obtain ⟨_, s, hk⟩ := hs0
      refine List.mem_map.mpr ⟨(inFolder out n, e0.data), List.mem_filterMap.mpr ⟨e0, he0, ?_⟩, rfl⟩
      unfold chosen
      rw [hk]
      dsimp only
      rw [if_pos (selected_self hl0 hb0), backToSlash_id hb0]
    obtain ⟨_, _, _, _, _, h⟩ := key _ hm
    split at h
    · rw [h]; simp
    · rename_i hq; rw [h]; exact hq
  · intro q
    by_cases hm : q ∈ (c.filterMap (chosen ⟨out, true, n, none⟩)).map (·.1)
    · obtain ⟨m, d, a1, a2, a3, h⟩ := key q hm
      split at h
      · exact Or.inr ⟨m, d, a1, a2, a3, h⟩
      · exact Or.inl h
    · exact Or.inl (h3 q hm)

theorem extract_each {srr : Path} {out : Str} {file : Bytes} {c : List Entry} (hc : Contents file c)
    (hlegal : ∀ e ∈ c, ∀ n, e.isStored n → PathName n)
    (hback : ∀ e ∈ c, ∀ n, e.isStored n → IsSrs n → 0x5C ∉ n) (names : List Str) :
    ∀ fs : FS, fs srr = some file → (∀ n ∈ names, (∃ e ∈ c, e.isStored n) ∧ IsSrs n) →
    ∃ fs', extractEach srr out names fs = (fs', .ok ()) ∧
      (∀ q, fs q ≠ none → fs' q = fs q) ∧ (∀ n ∈ names, fs' (inFolder out n) ≠ none) ∧
      ∀ q, fs' q = fs q ∨ ∃ m d, FirstStored c m d ∧ IsSrs m ∧ q = inFolder out m ∧ fs' q = some d := by
  induction names with
  | nil => intro fs _ _; exact ⟨fs, rfl, fun _ _ => rfl, by simp, fun _ => Or.inl rfl⟩
  | cons n t ih =>
    intro fs hs hn
    obtain ⟨fs1, rs, h1, h2, h3, h4⟩ := extract_srs_step (out := out) hs hc hlegal hback (hn n (by simp)).1 (hn n (by simp)).2
    obtain ⟨fs', g1, g2, g3, g4⟩ := ih fs1 (by rw [h2 srr (by rw [hs]; simp), hs]) (fun m hm => hn m (by simp [hm]))
    refine ⟨fs', by rw [extractEach, h1]; exact g1, ?_, ?_, ?_⟩
    · intro q hq
      have := h2 q hq
      rw [g2 q (by rw [this]; exact hq), this]
    · intro m hm
      rcases List.mem_cons.mp hm with rfl | hm
      · rw [g2 _ h3]; exact h3
      · exact g3 m hm
    · intro q
      rcases g4 q with g | g
      · rcases h4 q with h | ⟨m, d, a1, a2, a3, h⟩
        · exact Or.inl (g.trans h)
        · exact Or.inr ⟨m, d, a1, a2, a3, g.trans h⟩
      · exact Or.inr g

/-- The keys of the report are the names of the stored files. -/
theorem info_keys {lower upper : Str → Str} {file : Bytes} {c : List Entry} {i : Info} (hc : Contents file c)
    (hi : info lower upper file = .ok i) (n : Str) : n ∈ i.stored.map (·.1) ↔ ∃ e ∈ c, e.isStored n := by
  obtain ⟨ho, tr, htr, hce, hw, hd⟩ := hc
  have hra : readAll file = .ok (tr.map (·.1)) := by simp [readAll, htr]
  have hl := info_stored hra hi n
  have h1 : n ∈ i.stored.map (·.1) ↔ i.stored.lookup n ≠ none := by
    rw [ne_eq, List.lookup_eq_none_iff]
    constructor
    · intro h hx
      obtain ⟨p, hp, rfl⟩ := List.mem_map.mp h
      exact absurd (hx p hp) (by simp)
    · intro h
      apply Classical.byContradiction
      intro hx
      apply h
      intro p hp
      have : ¬ n = p.1 := fun he => hx (he ▸ List.mem_map_of_mem hp)
      simpa using this
  rw [h1, hl, ne_eq, Option.map_eq_none_iff, List.getLast?_eq_none_iff, List.filter_eq_nil_iff]
  constructor
  · intro h
    have : ∃ x ∈ storedFiles (tr.map (·.1)), x.1 = n := by
      apply Classical.byContradiction
      intro hx
      apply h
      intro x hxm he
      exact hx ⟨x, hxm, by simpa using he⟩
    obtain ⟨⟨m, s⟩, hx, rfl⟩ := this
    unfold storedFiles at hx
    obtain ⟨b, hb, hx⟩ := List.mem_filterMap.mp hx
    obtain ⟨y, hy, rfl⟩ := List.mem_map.mp hb
    split at hx
    · rename_i hbt
      split at hx
      · rename_i size name hk
        simp only [Option.some.injEq, Prod.mk.injEq] at hx
        refine ⟨entryOf file y, by rw [hce]; exact List.mem_map_of_mem hy, hbt, size, ?_⟩
        show y.1.kind = _
        rw [hk, hx.1]
      · simp at hx
    · simp at hx
  · rintro ⟨e, he, hbt, s, hk⟩ h
    rw [hce] at he
    obtain ⟨y, hy, rfl⟩ := List.mem_map.mp he
    have hbt' : y.1.btype = 0x6A := hbt
    have hk' : y.1.kind = .stored s n := hk
    refine h (n, s) ?_ (by simp)
    unfold storedFiles
    refine List.mem_filterMap.mpr ⟨y.1, List.mem_map_of_mem hy, ?_⟩
    rw [if_pos hbt', hk']

/-- C101: the tool writes exactly the SRS files of the SRR, each with its stored bytes (of
the first, if several have one name) below the output folder; no file that exists is
changed and nothing else is written.  Not covered: names with a "\". -/
theorem extract_srs_partial {lower upper : Str → Str} {srr : Path} {out : Str} {fs : FS} {file : Bytes} {c : List Entry} {i : Info}
    (hsrr : ∃ s, srr = s ++ str ".srr") (hs : fs srr = some file) (hc : Contents file c) (hi : info lower upper file = .ok i)
    (hlegal : ∀ e ∈ c, ∀ n, e.isStored n → PathName n)
    (hback : ∀ e ∈ c, ∀ n, e.isStored n → IsSrs n → 0x5C ∉ n) :
    ∃ fs', extractSrs lower upper srr out true fs = (fs', .ok ()) ∧
      (∀ n d, FirstStored c n d → IsSrs n → fs (inFolder out n) = none → fs' (inFolder out n) = some d) ∧
      (∀ q, fs q ≠ none → fs' q = fs q) ∧
      (∀ q, (∀ e ∈ c, ∀ n, e.isStored n → IsSrs n → q ≠ inFolder out n) → fs' q = fs q) := by
  have hend : endsWith srr (str ".srr") = true := by
    obtain ⟨s, rfl⟩ := hsrr
    unfold endsWith
    rw [List.isSuffixOf_iff_suffix]
    exact ⟨s, rfl⟩
  have hnames : ∀ n ∈ (i.stored.map (·.1)).filter (fun n => endsWith n (str ".srs")), (∃ e ∈ c, e.isStored n) ∧ IsSrs n := by
    intro n hn
    obtain ⟨h1, h2⟩ := List.mem_filter.mp hn
    exact ⟨(info_keys hc hi n).mp h1, isSrs_iff.mp h2⟩
  obtain ⟨fs', g1, g2, g3, g4⟩ := extract_each (out := out) hc hlegal hback _ fs hs hnames
  refine ⟨fs', ?_, ?_, g2, ?_⟩
  · unfold extractSrs
    simp only [hend, hs, hi]
    simpa using g1
  · intro n d hf hsrs hq
    have hst : ∃ e ∈ c, e.isStored n := by
      obtain ⟨c1, e, c2, rfl, he, _⟩ := hf
      exact ⟨e, by simp, he⟩
    have hin : n ∈ (i.stored.map (·.1)).filter (fun n => endsWith n (str ".srs")) :=
      List.mem_filter.mpr ⟨(info_keys hc hi n).mpr hst, isSrs_iff.mpr hsrs⟩
    have hne := g3 n hin
    rcases g4 (inFolder out n) with h | ⟨m, d', a1, a2, a3, h⟩
    · rw [h, hq] at hne
      exact absurd rfl hne
    · have hmn : n = m := by
        obtain ⟨e, he, hes⟩ := hst
        have l1 := hlegal e he n hes
        have b1 := hback e he n hes hsrs
        have hst' : ∃ e ∈ c, e.isStored m := by
          obtain ⟨c1, e, c2, rfl, he, _⟩ := a1
          exact ⟨e, by simp, he⟩
        obtain ⟨e', he', hes'⟩ := hst'
        have l2 := hlegal e' he' m hes'
        have b2 := hback e' he' m hes' a2
        have k1 := legal_head l1
        have k2 := legal_head l2
        rw [backToSlash_id b1] at k1
        rw [backToSlash_id b2] at k2
        obtain ⟨pre, _, hp⟩ := inFolder_eq out
        rw [hp n k1, hp m k2] at a3
        exact List.append_cancel_left a3
      subst hmn
      rw [h, first_unique a1 hf]
  · intro q hq
    rcases g4 q with h | ⟨m, d', a1, a2, a3, h⟩
    · exact h
    · obtain ⟨c1, e, c2, rfl, he, _⟩ := a1
      exact absurd a3 (hq e (by simp) m he a2)

/-- C101: wrong arguments change nothing and end with an error. -/
theorem extract_srs_refused {lower upper : Str → Str} {srr : Path} {out : Str} {isDir : Bool} {fs : FS}
    (h : (¬ ∃ s, srr = s ++ str ".srr") ∨ isDir = false ∨ fs srr = none) :
    ∃ e, extractSrs lower upper srr out isDir fs = (fs, .error e) := by
  have hend : (¬ ∃ s, srr = s ++ str ".srr") ↔ endsWith srr (str ".srr") = false := by
    rw [← Bool.not_eq_true]
    unfold endsWith
    rw [List.isSuffixOf_iff_suffix]
    exact not_congr ⟨fun ⟨s, h⟩ => ⟨s, h.symm⟩, fun ⟨s, h⟩ => ⟨s, h.symm⟩⟩
  rw [hend] at h
  unfold extractSrs
  by_cases h1 : endsWith srr (str ".srr") = true
  · rw [h1] at h
    simp only [h1]
    cases isDir with
    | false => exact ⟨_, rfl⟩
    | true =>
      simp only [Bool.true_eq_false, false_or] at h
      simp only [h]
      exact ⟨_, rfl⟩
  · exact ⟨.attrError, by simp [h1]⟩

/-- A stored file as an entry. -/
def exStored (name : String) (d : Bytes) : Entry :=
  ⟨0x6A, .stored d.length (str name), [0x6A, 0x6A, 0x6A, 0, 0x80, UInt8.ofNat (13 + (str name).length), 0, UInt8.ofNat d.length, 0, 0, 0,
    UInt8.ofNat (str name).length, 0] ++ (str name).map UInt8.ofNat, d⟩

/-- An SRR with stored files. -/
def exTool (l : List Entry) : List Entry := ⟨0x69, .srrHeader [], [0x69, 0x69, 0x69, 0, 0, 7, 0], []⟩ :: l

/-- Two SRS files, one below a folder, and another file. -/
def exSrsEntries : List Entry := exTool [exStored "a.nfo" [9], exStored "s/x.srs" [1, 2, 3], exStored "x.srs" [4, 5]]

theorem exSrs_contents : Contents (entriesBytes exSrsEntries) exSrsEntries := contents_of_check (by decide +kernel)

/-- A folder with this SRR. -/
def exSrsFs (l : List Entry) : FS := FS.set (fun _ => none) (str "a.srr") (some (entriesBytes l))

theorem exSrs_names {e : Entry} {n : Str} (he : e ∈ exSrsEntries) (h : e.isStored n) :
    n = str "a.nfo" ∨ n = str "s/x.srs" ∨ n = str "x.srs" := by
  obtain ⟨hb, s, hk⟩ := h
  simp only [exSrsEntries, exTool, List.mem_cons, List.not_mem_nil, or_false] at he
  rcases he with rfl | rfl | rfl | rfl
  · simp at hk
  · simp [exStored] at hk; exact Or.inl hk.2.symm
  · simp [exStored] at hk; exact Or.inr (Or.inl hk.2.symm)
  · simp [exStored] at hk; exact Or.inr (Or.inr hk.2.symm)

example : ∃ fs', extractSrs id id (str "a.srr") (str "out") true (exSrsFs exSrsEntries) = (fs', .ok ()) ∧
    fs' (str "out/s/x.srs") = some [1, 2, 3] ∧ fs' (str "out/x.srs") = some [4, 5] ∧ fs' (str "out/a.nfo") = none := by
  obtain ⟨i, hi⟩ : ∃ i, info id id (entriesBytes exSrsEntries) = .ok i := by
    have : (info id id (entriesBytes exSrsEntries)).toOption.isSome = true := by decide +kernel
    cases h : info id id (entriesBytes exSrsEntries) with
    | error e => rw [h] at this; simp [Except.toOption] at this
    | ok i => exact ⟨i, rfl⟩
  have hlegal : ∀ n, n = str "a.nfo" ∨ n = str "s/x.srs" ∨ n = str "x.srs" → PathName n := by
    rintro n (rfl | rfl | rfl) <;> (unfold PathName PlainElem; decide)
  obtain ⟨fs', h1, h2, _, h4⟩ := extract_srs_partial (lower := id) (upper := id) (srr := str "a.srr") (out := str "out")
    (fs := exSrsFs exSrsEntries) ⟨str "a", by decide⟩ (by rfl) exSrs_contents hi
    (fun e he n hn => hlegal n (exSrs_names he hn))
    (fun e he n hn _ => by rcases exSrs_names he hn with rfl | rfl | rfl <;> decide)
  refine ⟨fs', h1, ?_, ?_, ?_⟩
  · exact h2 (str "s/x.srs") [1, 2, 3] ⟨(exSrsEntries).take 2, exStored "s/x.srs" [1, 2, 3], (exSrsEntries).drop 3, rfl,
      ⟨rfl, 3, rfl⟩, rfl, by
        intro e he h
        obtain ⟨hb, s, hk⟩ := h
        simp only [exSrsEntries, exTool, List.take_succ_cons, List.take_zero, List.mem_cons, List.not_mem_nil, or_false] at he
        rcases he with rfl | rfl
        · simp at hk
        · simp [exStored] at hk; exact absurd hk.2 (by decide)⟩ ⟨str "s/x", by decide⟩ (by decide)
  · exact h2 (str "x.srs") [4, 5] ⟨(exSrsEntries).take 3, exStored "x.srs" [4, 5], [], rfl,
      ⟨rfl, 2, rfl⟩, rfl, by
        intro e he h
        obtain ⟨hb, s, hk⟩ := h
        simp only [exSrsEntries, exTool, List.take_succ_cons, List.take_zero, List.mem_cons, List.not_mem_nil, or_false] at he
        rcases he with rfl | rfl | rfl
        · simp at hk
        · simp [exStored] at hk; exact absurd hk.2 (by decide)
        · simp [exStored] at hk; exact absurd hk.2 (by decide)⟩ ⟨str "x", by decide⟩ (by decide)
  · rw [h4 (str "out/a.nfo")]
    · decide
    · intro e he n hn hs
      rcases exSrs_names he hn with rfl | rfl | rfl
      · exact absurd (isSrs_iff.mpr hs) (by decide)
      · decide
      · decide

/-- C101, not so: an SRS file whose stored name has a "\\" is passed over without a word, and
so is one with the extension in capitals. -/
theorem extract_srs_misses :
    (∃ c, Contents (entriesBytes c) c ∧ (∃ e ∈ c, e.isStored (str "s\\x.srs")) ∧
      (extractSrs id id (str "a.srr") (str "out") true (exSrsFs c)).2 = .ok () ∧
      ∀ q, (extractSrs id id (str "a.srr") (str "out") true (exSrsFs c)).1 q = exSrsFs c q) ∧
    (∃ c, Contents (entriesBytes c) c ∧ (∃ e ∈ c, e.isStored (str "x.SRS")) ∧
      (extractSrs id id (str "a.srr") (str "out") true (exSrsFs c)).2 = .ok () ∧
      ∀ q, (extractSrs id id (str "a.srr") (str "out") true (exSrsFs c)).1 q = exSrsFs c q) := by
  have hend : endsWith (str "a.srr") (str ".srr") = true := by decide
  refine ⟨⟨exTool [exStored "s\\x.srs" [1, 2, 3]], contents_of_check (by decide +kernel), ⟨_, List.mem_cons_of_mem _ (List.mem_cons_self ..), rfl, 3, rfl⟩, ?_⟩,
    ⟨exTool [exStored "x.SRS" [1, 2, 3]], contents_of_check (by decide +kernel), ⟨_, List.mem_cons_of_mem _ (List.mem_cons_self ..), rfl, 3, rfl⟩, ?_⟩⟩
  · have hr : (readAll (entriesBytes (exTool [exStored "s\\x.srs" [1, 2, 3]]))).toOption.map (fun l => l.map fun b => (b.btype, b.kind)) =
        some [(0x69, .srrHeader []), (0x6A, .stored 3 (str "s\\x.srs"))] := by decide +kernel
    have hi : (info id id (entriesBytes (exTool [exStored "s\\x.srs" [1, 2, 3]]))).toOption.map (fun i => i.stored.map (·.1)) =
        some [str "s\\x.srs"] := by decide +kernel
    have hfs : exSrsFs (exTool [exStored "s\\x.srs" [1, 2, 3]]) (str "a.srr") = some (entriesBytes (exTool [exStored "s\\x.srs" [1, 2, 3]])) := rfl
    generalize entriesBytes (exTool [exStored "s\\x.srs" [1, 2, 3]]) = data at *
    have : extractSrs id id (str "a.srr") (str "out") true (exSrsFs (exTool [exStored "s\\x.srs" [1, 2, 3]])) =
        (exSrsFs (exTool [exStored "s\\x.srs" [1, 2, 3]]), .ok ()) := by
      generalize exSrsFs (exTool [exStored "s\\x.srs" [1, 2, 3]]) = fs at *
      unfold extractSrs
      rw [if_neg (by simp [hend]), if_neg (by simp)]
      simp only [hfs]
      cases hx : info id id data with
      | error e => rw [hx] at hi; simp [Except.toOption] at hi
      | ok i =>
        rw [hx] at hi
        simp only [Except.toOption, Option.map_some, Option.some.injEq] at hi
        simp only [hi]
        have hf : ([str "s\\x.srs"].filter fun n => endsWith n (str ".srs")) = [str "s\\x.srs"] := by decide
        rw [hf, extractEach]
        unfold extractFiles
        simp only [hfs]
        cases hy : readAll data with
        | error e => rw [hy] at hr; simp [Except.toOption] at hr
        | ok bs =>
          rw [hy] at hr
          simp only [Except.toOption, Option.map_some, Option.some.injEq] at hr
          obtain ⟨b1, t1, rfl, r1, hr⟩ := List.map_eq_cons_iff.mp hr
          obtain ⟨b2, t2, rfl, r2, hr⟩ := List.map_eq_cons_iff.mp hr
          rw [List.map_eq_nil_iff] at hr
          subst hr
          simp only [Prod.mk.injEq] at r1 r2
          obtain ⟨r1, _⟩ := r1
          obtain ⟨r2, r3⟩ := r2
          have ho : opath (str "s\\x.srs") true (str "out") = .ok (str "out/s/x.srs") := by rfl
          have hn : osFileNameSrr (str "s\\x.srs") = .ok (str "s/x.srs") := by rfl
          have hsel : isSelected ⟨str "out", true, str "s\\x.srs", none⟩ (str "s\\x.srs") (str "out/s/x.srs") (str "s/x.srs") = false := by
            decide
          dsimp only
          rw [extractLoop, if_neg (by rw [r1]; decide), extractLoop, if_pos r2, r3]
          simp only [ho, hn, hsel]
          rfl
    rw [this]
    exact ⟨rfl, fun _ => rfl⟩
  · have hi : (info id id (entriesBytes (exTool [exStored "x.SRS" [1, 2, 3]]))).toOption.map (fun i => i.stored.map (·.1)) =
        some [str "x.SRS"] := by decide +kernel
    have hfs : exSrsFs (exTool [exStored "x.SRS" [1, 2, 3]]) (str "a.srr") = some (entriesBytes (exTool [exStored "x.SRS" [1, 2, 3]])) := rfl
    generalize entriesBytes (exTool [exStored "x.SRS" [1, 2, 3]]) = data at *
    have : extractSrs id id (str "a.srr") (str "out") true (exSrsFs (exTool [exStored "x.SRS" [1, 2, 3]])) =
        (exSrsFs (exTool [exStored "x.SRS" [1, 2, 3]]), .ok ()) := by
      generalize exSrsFs (exTool [exStored "x.SRS" [1, 2, 3]]) = fs at *
      unfold extractSrs
      rw [if_neg (by simp [hend]), if_neg (by simp)]
      simp only [hfs]
      cases hx : info id id data with
      | error e => rw [hx] at hi; simp [Except.toOption] at hi
      | ok i =>
        rw [hx] at hi
        simp only [Except.toOption, Option.map_some, Option.some.injEq] at hi
        simp only [hi]
        have hf : ([str "x.SRS"].filter fun n => endsWith n (str ".srs")) = [] := by decide
        rw [hf, extractEach]
    rw [this]
    exact ⟨rfl, fun _ => rfl⟩

theorem collect_gather {p : Path} {data : Bytes} (bs : List Block) : ∀ {app a : Option Str} {st : List (Bytes × Bytes)} {ot : List Bytes},
    mergeGather data bs app = .ok (a, st, ot) →
    ∃ st', mergeCollect p bs app = .ok (a, st', ot) ∧ (∀ x ∈ st', x.1 = p) ∧
      st'.map (fun x => (x.2.raw, srrData data x.2)) = st.map fun y => (y.1, .ok y.2) := by
  induction bs with
  | nil =>
    intro app a st ot h
    simp only [mergeGather, Except.ok.injEq, Prod.mk.injEq] at h
    obtain ⟨rfl, rfl, rfl⟩ := h
    exact ⟨[], rfl, by simp, rfl⟩
  | cons b t ih =>
    intro app a st ot h
    rw [mergeGather] at h
    rw [mergeCollect]
    split at h
    · rename_i h69
      rw [if_pos h69]
      split at h
      · rename_i x hk
        rw [hk]
        exact ih h
      · simp at h
    · rename_i h69
      rw [if_neg h69]
      split at h
      · rename_i h6a
        rw [if_pos h6a]
        rw [bind_eq_ok] at h
        obtain ⟨d, hd, h⟩ := h
        rw [bind_eq_ok] at h
        obtain ⟨⟨a1, st1, ot1⟩, hr, h⟩ := h
        simp only [pure_eq_ok, Except.ok.injEq, Prod.mk.injEq] at h
        obtain ⟨rfl, rfl, rfl⟩ := h
        obtain ⟨st', e1, e2, e3⟩ := ih hr
        refine ⟨(p, b) :: st', by rw [e1]; rfl, ?_, ?_⟩
        · intro x hx
          rcases List.mem_cons.mp hx with rfl | hx
          · rfl
          · exact e2 x hx
        · simp only [List.map_cons, e3, hd]
      · rename_i h6a
        rw [if_neg h6a]
        rw [bind_eq_ok] at h
        obtain ⟨⟨a1, st1, ot1⟩, hr, h⟩ := h
        simp only [pure_eq_ok, Except.ok.injEq, Prod.mk.injEq] at h
        obtain ⟨rfl, rfl, rfl⟩ := h
        obtain ⟨st', e1, e2, e3⟩ := ih hr
        exact ⟨st', by rw [e1]; rfl, e2, e3⟩

/-- A stored file of an SRR, with the path of the SRR. -/
theorem collect_all {fs : FS} (inputs : List (Path × Bytes × List Entry)) : ∀ {app : Option Str},
    (∀ i ∈ inputs, fs i.1 = some i.2.1 ∧ Contents i.2.1 i.2.2) →
    ∃ st', mergeCollectAll fs (inputs.map (·.1)) app = .ok (pickName app (inputs.flatMap fun i => appNames i.2.2), st',
        (inputs.flatMap fun i => otherPart i.2.2).map fun e => e.raw) ∧
      st'.map (fun x => (x.1, x.2.raw, (fs x.1).map fun d => srrData d x.2)) =
        inputs.flatMap (fun i => (storedPart i.2.2).map fun e => (i.1, e.raw, some (.ok e.data))) := by
  induction inputs with
  | nil => intro app _; exact ⟨[], rfl, rfl⟩
  | cons i t ih =>
    intro app h
    obtain ⟨hfs, hc⟩ := h i (by simp)
    have hg := (mergeGatherAll_items (inputs := [(i.2.1, i.2.2)]) (app := app) (by intro j hj; simp at hj; subst hj; exact hc)).1
    simp only [List.map_cons, List.map_nil, mergeGatherAll, List.flatMap_cons, List.flatMap_nil, List.append_nil] at hg
    rw [bind_eq_ok] at hg
    obtain ⟨bs, hbs, hg⟩ := hg
    rw [bind_eq_ok] at hg
    obtain ⟨⟨a1, st1, ot1⟩, hr, hg⟩ := hg
    simp only [ok_bind, pure_eq_ok, Except.ok.injEq, Prod.mk.injEq, List.append_nil] at hg
    obtain ⟨rfl, rfl, rfl⟩ := hg
    obtain ⟨st', e1, e2, e3⟩ := collect_gather (p := i.1) bs hr
    obtain ⟨st2, g1, g2⟩ := ih (app := pickName app (appNames i.2.2)) (fun j hj => h j (by simp [hj]))
    refine ⟨st' ++ st2, ?_, ?_⟩
    · simp only [List.map_cons, mergeCollectAll, hfs, hbs, ok_bind, e1, g1]
      simp [pickName_append]
    · rw [List.map_append, g2, List.flatMap_cons]
      congr 1
      have : st'.map (fun x => (x.1, x.2.raw, (fs x.1).map fun d => srrData d x.2)) =
          (st'.map (fun x => (x.2.raw, srrData i.2.1 x.2))).map fun y => (i.1, y.1, some y.2) := by
        rw [List.map_map]
        apply List.map_congr_left
        intro x hx
        simp [e2 x hx, hfs]
      rw [this, e3]
      simp [List.map_map, Function.comp_def]

/-- Writing the stored files when none of them is in the file that is written. -/
theorem stored_apart {fs : FS} {out : Path} (st : List (Path × Block)) : ∀ {seen : List Nat} {w : Bytes} {l : List (Path × Bytes × Bytes)},
    st.map (fun x => (x.1, x.2.raw, (fs x.1).map fun d => srrData d x.2)) = l.map (fun y => (y.1, y.2.1, some (.ok y.2.2))) →
    (∀ y ∈ l, y.1 ≠ out) →
    mergeStored fs out seen w st = (w ++ (l.map fun y => y.2.1 ++ y.2.2).flatten, .ok ()) := by
  induction st with
  | nil =>
    intro seen w l h _
    cases l with
    | nil => simp [mergeStored]
    | cons y l => simp at h
  | cons x t ih =>
    intro seen w l h hne
    cases l with
    | nil => simp at h
    | cons y l =>
      obtain ⟨p, b⟩ := x
      obtain ⟨p', raw, d⟩ := y
      simp only [List.map_cons, List.cons.injEq, Prod.mk.injEq] at h
      obtain ⟨⟨rfl, rfl, hd⟩, h⟩ := h
      have hp := hne _ (List.mem_cons_self ..)
      dsimp only at hp
      rw [mergeStored]
      rw [FS.set_ne _ _ hp]
      cases hf : fs p with
      | none => rw [hf] at hd; simp at hd
      | some data =>
        rw [hf] at hd
        simp only [Option.map_some, Option.some.injEq] at hd
        dsimp only
        rw [hd]
        dsimp only
        rw [ih h (fun y hy => hne y (by simp [hy]))]
        simp

/-- Writing the stored files when nothing of the new file is on the disk yet: those of the
SRR that is overwritten have no data. -/
theorem stored_over {fs : FS} {out : Path} (st : List (Path × Block)) : ∀ {w : Bytes} {l : List (Path × Bytes × Bytes)},
    st.map (fun x => (x.1, x.2.raw, (fs x.1).map fun d => srrData d x.2)) = l.map (fun y => (y.1, y.2.1, some (.ok y.2.2))) →
    mergeStored fs out [] w st = (w ++ (l.map fun y => y.2.1 ++ if y.1 = out then [] else y.2.2).flatten, .ok ()) := by
  induction st with
  | nil =>
    intro w l h
    cases l with
    | nil => simp [mergeStored]
    | cons y l => simp at h
  | cons x t ih =>
    intro w l h
    cases l with
    | nil => simp at h
    | cons y l =>
      obtain ⟨p, b⟩ := x
      obtain ⟨p', raw, d⟩ := y
      simp only [List.map_cons, List.cons.injEq, Prod.mk.injEq] at h
      obtain ⟨⟨rfl, rfl, hd⟩, h⟩ := h
      rw [mergeStored]
      cases hf : fs p with
      | none => rw [hf] at hd; simp at hd
      | some data =>
        rw [hf] at hd
        simp only [Option.map_some, Option.some.injEq] at hd
        by_cases hp : p = out
        · subst hp
          rw [FS.set_eq]
          unfold srrData at hd ⊢
          cases hk : b.kind with
          | stored size name =>
            simp only [List.headD_nil, List.take_zero]
            have : readAt [] (b.pos + b.hsize) size = [] := by simp [readAt]
            rw [this, List.append_nil, List.tail_nil, ih h]
            simp
          | _ => rw [hk] at hd; simp at hd
        · rw [FS.set_ne _ _ hp, hf]
          dsimp only
          rw [hd]
          dsimp only
          rw [List.tail_nil, ih h]
          simp [hp]

/-- C102: merging into a file that is not one of the SRRs writes only that file, and gives one
header with the first non-empty application name, all stored files and all other blocks, in
order and byte for byte, which reads back as such; whatever of the output reaches the disk
early. -/
theorem merge_files {inputs : List (Path × Bytes × List Entry)} {out : Path} {seen : List Nat} {fs : FS} {hdr : Bytes}
    (hne : inputs ≠ []) (h : ∀ i ∈ inputs, fs i.1 = some i.2.1 ∧ Contents i.2.1 i.2.2) (hout : out ∉ inputs.map (·.1))
    (hhdr : mkSrrHeader (firstName (inputs.flatMap fun i => appNames i.2.2)) = .ok hdr) :
    ∃ new, mergeFiles (inputs.map (·.1)) out none seen fs = (fs.set out (some new), .ok ()) ∧
      new = hdr ++ entriesBytes (inputs.flatMap fun i => storedPart i.2.2) ++
        entriesBytes (inputs.flatMap fun i => otherPart i.2.2) ∧
      (20 ≤ new.length → Contents new
        (⟨0x69, .srrHeader (firstName (inputs.flatMap fun i => appNames i.2.2)), hdr, []⟩ ::
          (inputs.flatMap (fun i => storedPart i.2.2) ++ inputs.flatMap (fun i => otherPart i.2.2)))) := by
  have hm := merge_result (inputs := inputs.map fun i => i.2) (app := none) (hdr := hdr) (by simpa using hne) (by
    intro j hj
    obtain ⟨i, hi, rfl⟩ := List.mem_map.mp hj
    exact (h i hi).2) (by
    simp only [Option.getD_none, firstName, List.flatMap_map]
    exact hhdr)
  obtain ⟨new, h1, h2, h3⟩ := hm
  simp only [List.flatMap_map, Option.getD_none, firstName] at h1 h2 h3
  refine ⟨new, ?_, h2, h3⟩
  obtain ⟨st', e1, e2⟩ := collect_all (app := none) inputs h
  obtain ⟨i, t, rfl⟩ := List.exists_cons_of_ne_nil hne
  have hpick : pickName none ((i :: t).flatMap fun i => appNames i.2.2) = some (firstName ((i :: t).flatMap fun i => appNames i.2.2)) := by
    have := appNames_ne_nil (h i (by simp)).2
    obtain ⟨a, u, hau⟩ := List.exists_cons_of_ne_nil this
    rw [List.flatMap_cons, hau, List.cons_append]
    unfold pickName
    rw [if_pos (Or.inl rfl), pickName_some]
  rw [hpick] at e1
  have e3 := stored_apart (out := out) (seen := seen) (w := hdr) st'
    (l := (i :: t).flatMap fun i => (storedPart i.2.2).map fun e => (i.1, e.raw, e.data)) (by
      rw [e2]; simp [List.map_flatMap, Function.comp_def]) (by
      intro y hy
      simp only [List.mem_flatMap, List.mem_map] at hy
      obtain ⟨j, hj, e, _, rfl⟩ := hy
      intro hc
      exact hout (hc ▸ List.mem_map_of_mem hj))
  unfold mergeFiles
  rw [e1]
  simp only [hhdr, e3]
  have e4 : ∀ j ∈ (i :: t), ∀ e ∈ otherPart j.2.2, e.data = [] := by
    intro j hj e he
    obtain ⟨_, tr, _, _, _, hd⟩ := (h j hj).2
    obtain ⟨hec, hb⟩ := List.mem_filter.mp he
    simp only [Bool.and_eq_true, bne_iff_ne] at hb
    have := hd e hec
    rwa [if_neg hb.1] at this
  have e5 : (((i :: t).flatMap fun i => otherPart i.2.2).map fun e => e.raw).flatten =
      entriesBytes ((i :: t).flatMap fun i => otherPart i.2.2) := by
    unfold entriesBytes
    congr 1
    apply List.map_congr_left
    intro e he
    obtain ⟨j, hj, he⟩ := List.mem_flatMap.mp he
    rw [e4 j hj e he, List.append_nil]
  rw [e5, h2]
  have e6 : (((i :: t).flatMap fun i => (storedPart i.2.2).map fun e => (i.1, e.raw, e.data)).map fun y => y.2.1 ++ y.2.2).flatten =
      entriesBytes ((i :: t).flatMap fun i => storedPart i.2.2) := by
    unfold entriesBytes
    simp [List.map_flatMap, Function.comp_def]
  rw [e6]

/-- C102: without -o the result is next to the first SRR, under its name with "_joined". -/
theorem merge_joined {inputs : List (Path × Bytes × List Entry)} {x : Str} {file : Bytes} {c : List Entry} {seen : List Nat} {fs : FS} {hdr : Bytes}
    (h : ∀ i ∈ (x ++ str ".srr", file, c) :: inputs, fs i.1 = some i.2.1 ∧ Contents i.2.1 i.2.2)
    (hout : x ++ str "_joined.srr" ∉ inputs.map (·.1))
    (hhdr : mkSrrHeader (firstName (((x ++ str ".srr", file, c) :: inputs).flatMap fun i => appNames i.2.2)) = .ok hdr) :
    ∃ new, mergeTool none ((x ++ str ".srr") :: inputs.map (·.1)) seen fs = (fs.set (x ++ str "_joined.srr") (some new), .ok ()) ∧
      new = hdr ++ entriesBytes (((x ++ str ".srr", file, c) :: inputs).flatMap fun i => storedPart i.2.2) ++
        entriesBytes (((x ++ str ".srr", file, c) :: inputs).flatMap fun i => otherPart i.2.2) := by
  obtain ⟨new, h1, h2, _⟩ := merge_files (seen := seen) (out := x ++ str "_joined.srr") (by simp) h (by
    rw [List.map_cons, List.mem_cons, not_or]
    refine ⟨fun hc => ?_, hout⟩
    have := List.append_cancel_left hc
    exact absurd this (by decide)) hhdr
  refine ⟨new, ?_, h2⟩
  rw [← h1]
  unfold mergeTool
  simp only [Option.getD_none, List.map_cons]
  congr 1
  have : (x ++ str ".srr").length - 4 = x.length := by
    have : (str ".srr").length = 4 := by decide
    rw [List.length_append, this]; omega
  rw [this, List.take_left]

/-- C102: with -o the result is there. -/
theorem merge_named {inputs : List (Path × Bytes × List Entry)} {o : Str} {seen : List Nat} {fs : FS} {hdr : Bytes} (ho : o ≠ [])
    (hne : inputs ≠ []) (h : ∀ i ∈ inputs, fs i.1 = some i.2.1 ∧ Contents i.2.1 i.2.2) (hout : o ∉ inputs.map (·.1))
    (hhdr : mkSrrHeader (firstName (inputs.flatMap fun i => appNames i.2.2)) = .ok hdr) :
    ∃ new, mergeTool (some o) (inputs.map (·.1)) seen fs = (fs.set o (some new), .ok ()) ∧
      new = hdr ++ entriesBytes (inputs.flatMap fun i => storedPart i.2.2) ++ entriesBytes (inputs.flatMap fun i => otherPart i.2.2) := by
  obtain ⟨new, h1, h2, _⟩ := merge_files (seen := seen) hne h hout hhdr
  refine ⟨new, ?_, h2⟩
  rw [← h1]
  obtain ⟨a, o, rfl⟩ := List.exists_cons_of_ne_nil ho
  unfold mergeTool
  rfl

/-- C102: when an SRR is not there or cannot be read, no file is changed. -/
theorem merge_unreadable {srrs : List Path} {out p : Path} {app : Option Str} {seen : List Nat} {fs : FS} (hp : p ∈ srrs)
    (h : ∀ data, fs p = some data → ∀ bs, readAll data ≠ .ok bs) : ∃ e, mergeFiles srrs out app seen fs = (fs, .error e) := by
  have : ∀ (l : List Path) (app : Option Str), p ∈ l → ∃ e, mergeCollectAll fs l app = .error e := by
    intro l
    induction l with
    | nil => intro _ hp; simp at hp
    | cons q t ih =>
      intro app hp
      rw [mergeCollectAll]
      cases hq : fs q with
      | none => exact ⟨_, rfl⟩
      | some data =>
        dsimp only
        cases hr : readAll data with
        | error e => exact ⟨e, rfl⟩
        | ok bs =>
          rw [ok_bind]
          cases hm : mergeCollect q bs app with
          | error e => exact ⟨e, rfl⟩
          | ok r =>
            obtain ⟨a, st, ot⟩ := r
            rw [ok_bind]
            rcases List.mem_cons.mp hp with rfl | hp
            · exact absurd hr (h data hq bs)
            · obtain ⟨e, he⟩ := ih a hp
              exact ⟨e, by rw [he]; rfl⟩
  obtain ⟨e, he⟩ := this srrs app hp
  exact ⟨e, by unfold mergeFiles; rw [he]⟩

/-- C102, not so: when the output is one of the SRRs, that SRR is emptied before its stored
files are read.  As long as nothing of the new file has left the buffer, they all get no data. -/
theorem merge_over_input {inputs : List (Path × Bytes × List Entry)} {out : Path} {fs : FS} {hdr : Bytes}
    (hne : inputs ≠ []) (h : ∀ i ∈ inputs, fs i.1 = some i.2.1 ∧ Contents i.2.1 i.2.2)
    (hhdr : mkSrrHeader (firstName (inputs.flatMap fun i => appNames i.2.2)) = .ok hdr) :
    mergeFiles (inputs.map (·.1)) out none [] fs = (fs.set out (some (hdr ++
      entriesBytes (inputs.flatMap fun i => (storedPart i.2.2).map fun e => { e with data := if i.1 = out then [] else e.data }) ++
        (inputs.flatMap fun i => (otherPart i.2.2).map fun e => e.raw).flatten)), .ok ()) := by
  obtain ⟨st', e1, e2⟩ := collect_all (app := none) inputs h
  obtain ⟨i, t, rfl⟩ := List.exists_cons_of_ne_nil hne
  have hpick : pickName none ((i :: t).flatMap fun i => appNames i.2.2) = some (firstName ((i :: t).flatMap fun i => appNames i.2.2)) := by
    have := appNames_ne_nil (h i (by simp)).2
    obtain ⟨a, u, hau⟩ := List.exists_cons_of_ne_nil this
    rw [List.flatMap_cons, hau, List.cons_append]
    unfold pickName
    rw [if_pos (Or.inl rfl), pickName_some]
  rw [hpick] at e1
  have e3 := stored_over (out := out) (w := hdr) st'
    (l := (i :: t).flatMap fun i => (storedPart i.2.2).map fun e => (i.1, e.raw, e.data)) (by
      rw [e2]; simp [List.map_flatMap, Function.comp_def])
  unfold mergeFiles
  rw [e1]
  simp only [hhdr, e3]
  congr 3
  unfold entriesBytes
  simp [List.map_flatMap, Function.comp_def]

/-- Two SRRs in a folder. -/
def exMergeFs : FS := FS.set (FS.set (fun _ => none) (str "a.srr") (some exSrr)) (str "b.srr") (some exSrr)

theorem exMerge_inputs : ∀ i ∈ [(str "a.srr", exSrr, exEntries), (str "b.srr", exSrr, exEntries)],
    exMergeFs i.1 = some i.2.1 ∧ Contents i.2.1 i.2.2 := by
  intro i hi
  simp only [List.mem_cons, List.not_mem_nil, or_false] at hi
  rcases hi with rfl | rfl
  · exact ⟨by decide, exSrr_contents⟩
  · exact ⟨by decide, exSrr_contents⟩

example : ∃ new, mergeTool none [str "a.srr", str "b.srr"] [5, 3] exMergeFs = (exMergeFs.set (str "a_joined.srr") (some new), .ok ()) ∧
    new.length = 61 := by
  obtain ⟨new, h1, h2⟩ := merge_joined (inputs := [(str "b.srr", exSrr, exEntries)]) (x := str "a") (file := exSrr) (c := exEntries)
    (seen := [5, 3]) (fs := exMergeFs) (hdr := [0x69, 0x69, 0x69, 0, 0, 7, 0]) exMerge_inputs (by decide) (by decide)
  exact ⟨new, h1, by rw [h2]; decide⟩

theorem count_entries (c : List Entry) : (c.filter fun e => e.data = [1, 2, 3]).length ≤ (entriesBytes c).count 2 := by
  induction c with
  | nil => simp
  | cons e t ih =>
    have : entriesBytes (e :: t) = e.raw ++ e.data ++ entriesBytes t := by simp [entriesBytes]
    rw [this, List.count_append, List.count_append, List.filter_cons]
    split
    · rename_i h
      simp only [decide_eq_true_eq] at h
      rw [h, List.length_cons]
      have : List.count 2 ([1, 2, 3] : Bytes) = 1 := by decide
      omega
    · omega

/-- C102, not so: both SRRs have a file with the bytes 1, 2, 3.  After
`srr_merge a.srr b.srr -o a.srr` there are no longer two such files in a.srr. -/
theorem merge_destroys : ∃ new,
    mergeTool (some (str "a.srr")) [str "a.srr", str "b.srr"] [] exMergeFs = (exMergeFs.set (str "a.srr") (some new), .ok ()) ∧
    (∃ e ∈ exEntries, e.isStored (str "a") ∧ e.data = [1, 2, 3]) ∧
    ∀ c, Contents new c → (c.filter fun e => e.data = [1, 2, 3]).length < 2 := by
  have h := merge_over_input (out := str "a.srr") (fs := exMergeFs)
    (hdr := [0x69, 0x69, 0x69, 0, 0, 7, 0]) (by simp) exMerge_inputs (by decide)
  refine ⟨_, h, by simp only [exEntries]; exact ⟨_, List.mem_cons_of_mem _ (List.mem_cons_self ..), ⟨rfl, 3, rfl⟩, rfl⟩, ?_⟩
  intro c hc
  have h1 := count_entries c
  rw [contents_bytes hc] at h1
  exact Nat.lt_of_le_of_lt h1 (by decide)

/-- C102, not so: without -o this happens to an SRR with the name of the result, as when
`srr_merge *.srr` is run for the second time. -/
example (fs : FS) (seen : List Nat) : mergeTool none [str "a.srr", str "a_joined.srr"] seen fs =
    mergeFiles [str "a.srr", str "a_joined.srr"] (str "a_joined.srr") none seen fs := rfl

end Rescene.Props
