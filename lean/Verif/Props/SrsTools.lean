import Verif.Spec.SrsTools
import Verif.Props.SrrTools
import Verif.Props.SrsMain
import Verif.Props.Riff
import Verif.Props.Mov
import Verif.Props.Mkv
import Verif.Spec.Volumes
/-
C105: srs_size.py and srs_bad.py.
-/
namespace Rescene.Props
open Rescene Rescene.Spec

theorem lastElem_plain {m : Str} (h : PathName m) : PlainElem (lastElem m) := by
  apply h
  unfold lastElem basename
  cases hx : (splitOn 0x2F (backToSlash m)).getLast? with
  | none => rw [List.getLast?_eq_none_iff] at hx; exact absurd hx (splitOn_ne _ _)
  | some x => exact List.mem_of_getLast? hx

theorem join_within {temp b : Str} (ht : TempFolder temp) (hb : 0x2F ∉ b) : posixJoin temp [b] = within temp b := by
  show posixJoin2 temp b = _
  rw [posixJoin2, if_neg, if_neg]
  · rfl
  · rintro (h | h)
    · exact ht.2.1 h
    · exact ht.2.2 h
  · intro h
    exact hb (List.mem_of_head? h)

theorem lastElem_no_slash (m : Str) : 0x2F ∉ lastElem m := basename_no_slash _

theorem opath_flat {temp m : Str} (ht : TempFolder temp) (h : PathName m) : opath m false temp = .ok (within temp (lastElem m)) := by
  unfold opath
  rw [osName_legal h, ok_bind]
  simp only [Bool.false_eq_true, if_false, pure_eq_ok]
  rw [ht.1]
  exact congrArg Except.ok (join_within ht (lastElem_no_slash m))

/-- The file an entry gives in the temporary folder. -/
def flat (temp : Str) (e : Entry) : Option (Path × Bytes) :=
  match e.kind with
  | .stored _ m => some (within temp (lastElem m), e.data)
  | _ => none

theorem selection_flat {temp : Str} (ht : TempFolder temp) (c : List Entry) (h : ∀ e ∈ c, ∀ s n, e.kind = .stored s n → PathName n) :
    selection ⟨temp, false, [], none⟩ c = some (c.filterMap (flat temp)) := by
  induction c with
  | nil => rfl
  | cons e t ih =>
    have ih := ih fun e he => h e (List.mem_cons_of_mem _ he)
    rw [List.filterMap_cons]
    cases hk : e.kind with
    | stored s m =>
      have hl := h e (by simp) s m hk
      have hch : flat temp e = some (within temp (lastElem m), e.data) := by unfold flat; rw [hk]
      rw [selection, hch, hk]
      simp only [opath_flat ht hl, osName_legal hl, ih]
      rw [if_pos (by simp [isSelected])]
    | _ =>
      have hch : flat temp e = none := by unfold flat; rw [hk]
      rw [selection, hch, hk]
      exact ih

theorem within_inj {temp a b : Str} (h : within temp a = within temp b) : a = b := by
  unfold within at h
  simpa using h

/-- What is in the temporary folder after extracting. -/
theorem extract_flat {srr : Path} {temp : Str} {fs : FS} {file : Bytes} {c : List Entry} (ht : TempFolder temp) (hs : fs srr = some file)
    (hc : Contents file c) (hlegal : ∀ e ∈ c, ∀ n, e.isStored n → PathName n) (hnew : ∀ b, fs (within temp b) = none) :
    ∃ fs' rs, extractFiles srr (fun _ => false) ⟨temp, false, [], none⟩ fs = (fs', .ok rs) ∧
      (∀ q, (∀ b, q ≠ within temp b) → fs' q = fs q) ∧ ∀ b d, fs' (within temp b) = some d ↔ BaseFirst c b d := by
  have hlk : ∀ e ∈ c, ∀ s m, e.kind = .stored s m → PathName m := fun e he s m hk => hlegal e he m (contents_stored_type hc he hk)
  obtain ⟨fs', rs, h1, _, h3, h4⟩ := extract_result (srr := srr) (ask := fun _ => false) rfl hs hc (selection_flat ht c hlk)
  have hmem : ∀ q, q ∈ (c.filterMap (flat temp)).map (·.1) → ∃ b, q = within temp b := by
    intro q hq
    obtain ⟨x, hx, rfl⟩ := List.mem_map.mp hq
    obtain ⟨e, he, hf⟩ := List.mem_filterMap.mp hx
    unfold flat at hf
    split at hf
    · cases hf; exact ⟨_, rfl⟩
    · simp at hf
  have put : ∀ b d, BaseFirst c b d → fs' (within temp b) = some d := by
    rintro b d ⟨c1, e, c2, rfl, ⟨m, ⟨_, s, hk⟩, rfl⟩, rfl, hfirst⟩
    have hfl : flat temp e = some (within temp (lastElem m), e.data) := by unfold flat; rw [hk]
    have := h4 (c1.filterMap (flat temp)) (within temp (lastElem m)) e.data (c2.filterMap (flat temp))
      (by rw [List.filterMap_append, List.filterMap_cons, hfl]) (by
        intro hq
        obtain ⟨x, hx, hxe⟩ := List.mem_map.mp hq
        obtain ⟨e', he', hf⟩ := List.mem_filterMap.mp hx
        unfold flat at hf
        split at hf
        · rename_i s' m' hk'
          cases hf
          exact hfirst e' he' m' (contents_stored_type hc (by simp [he']) hk') (within_inj hxe)
        · simp at hf) rfl
    rw [if_pos (hnew _)] at this
    exact this.1
  refine ⟨fs', rs, h1, ?_, fun b d => ⟨fun h => ?_, put b d⟩⟩
  · intro q hq
    apply h3
    intro hm
    obtain ⟨b, rfl⟩ := hmem q hm
    exact hq b rfl
  · by_cases hm : within temp b ∈ (c.filterMap (flat temp)).map (·.1)
    · obtain ⟨s1, d', s2, hsp, hnot⟩ := split_first _ hm
      have hw := h4 s1 _ d' s2 hsp hnot rfl
      rw [if_pos (hnew _), h] at hw
      obtain ⟨c1, c2, rfl, e1, e2⟩ := List.filterMap_eq_append_iff.mp hsp
      obtain ⟨l1, e, l2, rfl, e3, e4, e5⟩ := List.filterMap_eq_cons_iff.mp e2
      have hec : e ∈ c1 ++ (l1 ++ e :: l2) := by simp
      unfold flat at e4
      split at e4
      · rename_i s m hk
        simp only [Option.some.injEq, Prod.mk.injEq] at e4
        refine ⟨c1 ++ l1, e, l2, by simp, ⟨m, contents_stored_type hc hec hk, within_inj e4.1⟩, ?_, ?_⟩
        · rw [e4.2]; exact (Option.some.inj hw.1).symm
        · rintro e' he' m' ⟨_, s', hk'⟩ hb
          have hf : flat temp e' = some (within temp b, e'.data) := by unfold flat; rw [hk', ← hb]
          rcases List.mem_append.mp he' with he' | he'
          · apply hnot
            rw [← e1]
            exact List.mem_map.mpr ⟨_, List.mem_filterMap.mpr ⟨e', he', hf⟩, rfl⟩
          · rw [e3 e' he'] at hf
            simp at hf
      · simp at e4
    · rw [h3 _ hm, hnew] at h
      simp at h

theorem baseFirst_exists {c : List Entry} {m : Str} (h : ∃ e ∈ c, e.isStored m) : ∃ d, BaseFirst c (lastElem m) d := by
  induction c with
  | nil => obtain ⟨e, he, _⟩ := h; simp at he
  | cons x t ih =>
    by_cases hx : ∃ m', x.isStored m' ∧ lastElem m' = lastElem m
    · exact ⟨x.data, [], x, t, rfl, hx, rfl, by simp⟩
    · obtain ⟨e, he, hm⟩ := h
      rcases List.mem_cons.mp he with rfl | he
      · exact absurd ⟨m, hm, rfl⟩ hx
      · obtain ⟨d, c1, e1, c2, rfl, h1, h2, h3⟩ := ih ⟨e, he, hm⟩
        refine ⟨d, x :: c1, e1, c2, rfl, h1, h2, ?_⟩
        intro e' he' m' hm' hb
        rcases List.mem_cons.mp he' with rfl | he'
        · exact hx ⟨m', hm', hb⟩
        · exact h3 e' he' m' hm' hb

theorem baseFirst_unique {c : List Entry} {b : Str} {d d' : Bytes} (h : BaseFirst c b d) (h' : BaseFirst c b d') : d = d' := by
  obtain ⟨c1, e, c2, rfl, ⟨m, hm, hb⟩, rfl, hf⟩ := h
  obtain ⟨c1', e', c2', he, ⟨m', hm', hb'⟩, rfl, hf'⟩ := h'
  rcases List.append_eq_append_iff.mp he with ⟨a, ha, hx⟩ | ⟨a, ha, hx⟩
  · cases a with
    | nil => simp at hx; rw [hx.1]
    | cons y a =>
      simp at hx
      exact absurd hb (hf' e (by rw [ha, hx.1]; simp) m hm)
  · cases a with
    | nil => simp at hx; rw [hx.1]
    | cons y a =>
      simp at hx
      exact absurd hb' (hf e' (by rw [ha, hx.1]; simp) m' hm')

theorem badLoop_lists {dig : Nat → Bool} {lower : Str → Str} {temp : Str} {fs : FS} (names : List Str)
    (h : ∀ n ∈ names, endsWith (basename n) (str ".srs") = true → ∃ d, fs (posixJoin temp [basename n]) = some d ∧
      (Music dig lower (posixJoin temp [basename n]) d ∨ ∃ offs, Places dig lower (posixJoin temp [basename n]) d offs)) :
    ∃ l, badLoop dig lower temp fs names = .ok l ∧ ∀ x, x ∈ l ↔
      ∃ n ∈ names, basename n = x ∧ endsWith x (str ".srs") = true ∧
        ∃ d offs, fs (posixJoin temp [x]) = some d ∧ Places dig lower (posixJoin temp [x]) d offs ∧ 0 ∈ offs := by
  induction names with
  | nil => exact ⟨[], rfl, by simp⟩
  | cons n t ih =>
    obtain ⟨l, hl, hx⟩ := ih fun m hm => h m (by simp [hm])
    have split : ∀ x, (∃ m ∈ n :: t, basename m = x ∧ endsWith x (str ".srs") = true ∧
        ∃ d offs, fs (posixJoin temp [x]) = some d ∧ Places dig lower (posixJoin temp [x]) d offs ∧ 0 ∈ offs) ↔
        (basename n = x ∧ endsWith x (str ".srs") = true ∧
          ∃ d offs, fs (posixJoin temp [x]) = some d ∧ Places dig lower (posixJoin temp [x]) d offs ∧ 0 ∈ offs) ∨ x ∈ l := by
      intro x
      rw [hx x]
      simp [or_and_right, exists_or]
    rw [badLoop]
    dsimp only
    cases he : endsWith (basename n) (str ".srs") with
    | false =>
      refine ⟨l, by simpa using hl, fun x => ?_⟩
      rw [split x]
      refine ⟨Or.inr, ?_⟩
      rintro (⟨rfl, h', _⟩ | h')
      · rw [he] at h'; simp at h'
      · exact h'
    | true =>
      obtain ⟨d, hd, hk⟩ := h n (by simp) he
      rw [if_pos rfl, hd]
      dsimp only
      rcases hk with hk | ⟨offs, k, size, hk, hk1, hk2, hto⟩
      · refine ⟨l, ?_, fun x => ?_⟩
        · rcases hk with hk | hk <;> (rw [hk, ok_bind]; simpa using hl)
        · rw [split x]
          refine ⟨Or.inr, ?_⟩
          rintro (⟨rfl, _, d', offs, hd', ⟨k, size, hk', h1, h2, _⟩, _⟩ | h')
          · rw [hd] at hd'
            cases hd'
            rcases hk with hk | hk
            · rw [hk] at hk'; cases hk'; exact absurd rfl h1
            · rw [hk] at hk'; cases hk'; exact absurd rfl h2
          · exact h'
      · rw [hk, ok_bind, if_neg (by simp [hk1, hk2]), hto, ok_bind]
        dsimp only
        rw [hl, ok_bind]
        refine ⟨_, rfl, fun x => ?_⟩
        rw [split x]
        by_cases h0 : (0 : Int) ∈ offs
        · rw [if_pos h0, List.mem_cons]
          constructor
          · rintro (rfl | h')
            · exact Or.inl ⟨rfl, he, d, offs, hd, ⟨k, size, hk, hk1, hk2, hto⟩, h0⟩
            · exact Or.inr h'
          · rintro (⟨rfl, _⟩ | h')
            · exact Or.inl rfl
            · exact Or.inr h'
        · rw [if_neg h0]
          refine ⟨Or.inr, ?_⟩
          rintro (⟨rfl, _, d', offs', hd', ⟨k', size', hk', _, _, hto'⟩, h0'⟩ | h')
          · rw [hd] at hd'
            cases hd'
            rw [hk] at hk'
            cases hk'
            rw [hto] at hto'
            cases hto'
            exact absurd h0' h0
          · exact h'

theorem isBadTxt_iff {x : Str} : isBadTxt x = true ↔ TxtName x := by
  unfold isBadTxt TxtName endsWith badTxtExts
  simp only [Bool.and_eq_true, List.isSuffixOf_iff_suffix, List.any_eq_true]
  constructor
  · rintro ⟨⟨s, rfl⟩, e, he, hs⟩
    rw [List.length_append, show (str ".txt").length = 4 from rfl, Nat.add_sub_cancel, List.take_left'] at hs
    · obtain ⟨s', rfl⟩ := hs
      exact ⟨s', e, he, rfl⟩
    · rfl
  · rintro ⟨s, e, he, rfl⟩
    refine ⟨⟨_, rfl⟩, e, he, ?_⟩
    rw [List.length_append, show (str ".txt").length = 4 from rfl, Nat.add_sub_cancel, List.take_left' rfl]
    exact ⟨s, rfl⟩

theorem txt_not_srs {x : Str} (h : TxtName x) : endsWith x (str ".srs") = false := by
  obtain ⟨s, e, _, rfl⟩ := h
  cases hx : endsWith (s ++ e ++ str ".txt") (str ".srs") with
  | false => rfl
  | true =>
    unfold endsWith at hx
    rw [List.isSuffixOf_iff_suffix] at hx
    obtain ⟨t, ht⟩ := hx
    have := (List.append_inj' ht rfl).2
    exact absurd this (by decide)

/-- The name of an SRS file without "\". -/
theorem lastElem_srs {m : Str} (h : IsSrs (lastElem m)) : IsSrs m := by
  rw [← isSrs_iff]
  unfold endsWith
  rw [List.isSuffixOf_iff_suffix]
  obtain ⟨s, hs⟩ := h
  refine backToSlash_suffix srs_chars (List.IsSuffix.trans ⟨s, hs.symm⟩ (basename_suffix _))

theorem srs_lastElem {m : Str} (h : IsSrs (basename m)) : IsSrs m := by
  obtain ⟨s, hs⟩ := h
  obtain ⟨t, ht⟩ := basename_suffix m
  exact ⟨t ++ s, by rw [List.append_assoc, ← hs, ht]⟩

/-- C105: what srs_bad.py lists for an SRR file, and what it leaves.  The files are put in one folder, where the first one of
a name stays, so `BaseFirst` says which file is looked at for a name. -/
theorem bad_lists {dig : Nat → Bool} {lower upper : Str → Str} {verify txt : Bool} {temp : Str} {srr : Path} {fs : FS} {file : Bytes}
    {c : List Entry} {i : Info} (ht : TempFolder temp) (hs : fs srr = some file) (hc : Contents file c)
    (hi : info lower upper file = .ok i) (hlegal : ∀ e ∈ c, ∀ n, e.isStored n → PathName n)
    (hback : ∀ e ∈ c, ∀ n, e.isStored n → IsSrs n → 0x5C ∉ n) (hnew : ∀ b, fs (within temp b) = none)
    (hread : ∀ b d, BaseFirst c b d → IsSrs b → Music dig lower (within temp b) d ∨ ∃ offs, Places dig lower (within temp b) d offs) :
    ∃ l, handleSrr dig lower upper verify txt temp srr fs = (fs, .ok l) ∧ ∀ x, x ∈ l ↔
      (txt = true ∧ (∃ e ∈ c, e.isStored x) ∧ TxtName x) ∨
      (verify = true ∧ IsSrs x ∧ ∃ d offs, BaseFirst c x d ∧ Places dig lower (within temp x) d offs ∧ 0 ∈ offs) := by
  have hkeys := info_keys hc hi
  unfold handleSrr
  rw [hs]
  dsimp only
  rw [hi]
  dsimp only
  generalize hT : (if txt = true then (i.stored.map (·.1)).filter (fun n => !(endsWith n (str ".srs") && verify) && isBadTxt n) else []) = texts
  have htexts : ∀ x, x ∈ texts ↔ (txt = true ∧ (∃ e ∈ c, e.isStored x) ∧ TxtName x) := by
    intro x
    rw [← hT]
    cases txt with
    | false => simp
    | true =>
      rw [if_pos rfl, List.mem_filter, hkeys x, Bool.and_eq_true, isBadTxt_iff]
      constructor
      · rintro ⟨h1, h2, h3⟩; exact ⟨rfl, h1, h3⟩
      · rintro ⟨_, h1, h3⟩; exact ⟨h1, by rw [txt_not_srs h3]; rfl, h3⟩
  obtain ⟨fs', rs, h1, h2, h3⟩ := extract_flat (srr := srr) ht hs hc hlegal hnew
  have base : ∀ n, (∃ e ∈ c, e.isStored n) → endsWith (basename n) (str ".srs") = true → basename n = lastElem n := by
    rintro n ⟨e, he, hn⟩ hb
    unfold lastElem
    rw [backToSlash_id (hback e he n hn (srs_lastElem (isSrs_iff.mp hb)))]
  split
  · rename_i hv
    rw [Bool.and_eq_true] at hv
    rw [h1]
    dsimp only
    obtain ⟨l, hl, hx⟩ := badLoop_lists (dig := dig) (lower := lower) (temp := temp) (fs := fs') (i.stored.map (·.1)) (by
      intro n hn he
      have hst := (hkeys n).mp hn
      have hb := base n hst he
      rw [hb] at he ⊢
      obtain ⟨d, hd⟩ := baseFirst_exists hst
      rw [join_within ht (lastElem_no_slash n)]
      exact ⟨d, (h3 _ _).mpr hd, hread _ d hd (isSrs_iff.mp he)⟩)
    rw [hl]
    refine ⟨texts ++ l, ?_, fun x => ?_⟩
    · dsimp only
      congr 1
      funext p
      unfold emptyFolder
      split
      · rename_i hp
        obtain ⟨b, rfl⟩ := List.isPrefixOf_iff_prefix.mp hp
        rw [List.append_assoc]
        exact (hnew b).symm
      · rename_i hp
        apply h2
        rintro b rfl
        apply hp
        rw [List.isPrefixOf_iff_prefix]
        exact ⟨b, by simp [within]⟩
    · rw [List.mem_append, htexts, hx]
      apply or_congr Iff.rfl
      constructor
      · rintro ⟨n, hn, rfl, he, d, offs, hd, hp, h0⟩
        have hb := base n ((hkeys n).mp hn) he
        rw [hb] at he hd hp ⊢
        rw [join_within ht (lastElem_no_slash n)] at hd hp
        exact ⟨hv.1, isSrs_iff.mp he, d, offs, (h3 _ _).mp hd, hp, h0⟩
      · rintro ⟨_, he, d, offs, hb, hp, h0⟩
        obtain ⟨c1, e, c2, rfl, ⟨m, hm, rfl⟩, hd, hf⟩ := id hb
        have hst : ∃ e' ∈ c1 ++ e :: c2, e'.isStored m := ⟨e, by simp, hm⟩
        have hmm : basename m = lastElem m := by
          unfold lastElem
          rw [backToSlash_id (hback e (by simp) m hm (lastElem_srs he))]
        refine ⟨m, (hkeys m).mpr hst, hmm, isSrs_iff.mpr he, d, offs, ?_⟩
        rw [join_within ht (lastElem_no_slash m)]
        exact ⟨(h3 _ _).mpr hb, hp, h0⟩
  · rename_i hv
    refine ⟨texts, rfl, fun x => ?_⟩
    rw [htexts]
    refine ⟨Or.inl, ?_⟩
    rintro (h | ⟨rfl, he, d, offs, ⟨c1, e, c2, rfl, ⟨m, hm, rfl⟩, _, _⟩, _⟩)
    · exact h
    · exfalso
      apply hv
      rw [Bool.true_and, List.any_eq_true]
      exact ⟨m, (hkeys m).mpr ⟨e, by simp, hm⟩, isSrs_iff.mpr (lastElem_srs he)⟩

/-- What `handle_srr` does up to the loop. -/
theorem handle_verify {dig : Nat → Bool} {lower upper : Str → Str} {txt : Bool} {temp : Str} {srr : Path} {fs fs' : FS} {file : Bytes}
    {c : List Entry} {i : Info} {rs : List (Path × Bool)} {n : Str} (hs : fs srr = some file) (hc : Contents file c)
    (hi : info lower upper file = .ok i) (hn : ∃ e ∈ c, e.isStored n) (hsrs : IsSrs n)
    (hx : extractFiles srr (fun _ => false) ⟨temp, false, [], none⟩ fs = (fs', .ok rs))
    (hbad : ¬ ∃ l, badLoop dig lower temp fs' (i.stored.map (·.1)) = .ok l) :
    ∃ e, handleSrr dig lower upper true txt temp srr fs = (fs', .error e) := by
  unfold handleSrr
  rw [hs]
  dsimp only
  rw [hi]
  dsimp only
  rw [if_pos, hx]
  · dsimp only
    cases hb : badLoop dig lower temp fs' (i.stored.map (·.1)) with
    | ok l => exact absurd ⟨l, hb⟩ hbad
    | error e => exact ⟨e, rfl⟩
  · rw [Bool.true_and, List.any_eq_true]
    exact ⟨n, (info_keys hc hi n).mpr hn, isSrs_iff.mpr hsrs⟩

theorem badLoop_ok {dig : Nat → Bool} {lower : Str → Str} {temp : Str} {fs : FS} (names : List Str) :
    ∀ l, badLoop dig lower temp fs names = .ok l → ∀ n ∈ names, endsWith (basename n) (str ".srs") = true →
      ∃ d, fs (posixJoin temp [basename n]) = some d ∧
      (Music dig lower (posixJoin temp [basename n]) d ∨ ∃ offs, Places dig lower (posixJoin temp [basename n]) d offs) := by
  induction names with
  | nil => simp
  | cons m t ih =>
    intro l h n hn he
    rw [badLoop] at h
    dsimp only at h
    cases hm : endsWith (basename m) (str ".srs") with
    | false =>
      rw [hm] at h
      rcases List.mem_cons.mp hn with rfl | hn
      · rw [hm] at he; simp at he
      · exact ih l (by simpa using h) n hn he
    | true =>
      rw [hm, if_pos rfl] at h
      cases hd : fs (posixJoin temp [basename m]) with
      | none => rw [hd] at h; simp at h
      | some d =>
        rw [hd] at h
        dsimp only at h
        rw [bind_eq_ok] at h
        obtain ⟨k, hk, h⟩ := h
        split at h
        · rename_i hmu
          rcases List.mem_cons.mp hn with rfl | hn
          · exact ⟨d, hd, Or.inl (by rcases hmu with rfl | rfl; exact Or.inl hk; exact Or.inr hk)⟩
          · exact ih l h n hn he
        · rename_i hmu
          rw [bind_eq_ok] at h
          obtain ⟨⟨size, offs⟩, hto, h⟩ := h
          dsimp only at h
          rw [bind_eq_ok] at h
          obtain ⟨r, hr, _⟩ := h
          rcases List.mem_cons.mp hn with rfl | hn
          · exact ⟨d, hd, Or.inr ⟨offs, k, size, hk, fun h => hmu (Or.inl h), fun h => hmu (Or.inr h), hto⟩⟩
          · exact ih r hr n hn he

/-- C105 does not hold for every SRR file: one stored SRS file of fewer than 14 bytes ends the run of srs_bad.py with an error.
No other SRR file is looked at and the stored files stay in the temporary folder. -/
theorem bad_stops {dig : Nat → Bool} {lower upper : Str → Str} {txt : Bool} {temp : Str} {srr : Path} {fs : FS} {file : Bytes}
    {c : List Entry} {i : Info} {b : Str} {d : Bytes} (ht : TempFolder temp) (hs : fs srr = some file) (hc : Contents file c)
    (hi : info lower upper file = .ok i) (hlegal : ∀ e ∈ c, ∀ n, e.isStored n → PathName n)
    (hback : ∀ e ∈ c, ∀ n, e.isStored n → IsSrs n → 0x5C ∉ n) (hnew : ∀ b, fs (within temp b) = none)
    (hb : BaseFirst c b d) (hsrs : IsSrs b) (hd : d.length < 14) (hend : lower (srr.drop (srr.length - 4)) = str ".srr") :
    ∃ fs' e, (∀ b' d', BaseFirst c b' d' → fs' (within temp b') = some d') ∧
      ∀ more, srsBad dig lower upper true txt temp (srr :: more) fs = ([], .error e, fs') := by
  obtain ⟨fs', rs, h1, h2, h3⟩ := extract_flat (srr := srr) ht hs hc hlegal hnew
  obtain ⟨c1, x, c2, hcc, ⟨m, hm, hlast⟩, _⟩ := id hb
  have hmem : x ∈ c := by rw [hcc]; simp
  have hmsrs : IsSrs m := lastElem_srs (hlast ▸ hsrs)
  have hbm : basename m = b := by rw [← hlast, lastElem, backToSlash_id (hback x hmem m hm hmsrs)]
  obtain ⟨e, he⟩ := handle_verify (dig := dig) (txt := txt) hs hc hi ⟨x, hmem, hm⟩ hmsrs h1 (by
    rintro ⟨l, hl⟩
    obtain ⟨d', hd', hr⟩ := badLoop_ok _ l hl m ((info_keys hc hi m).mpr ⟨x, hmem, hm⟩) (by rw [hbm]; exact isSrs_iff.mpr hsrs)
    rw [hbm, join_within ht (by rw [← hlast]; exact lastElem_no_slash m)] at hd' hr
    rw [(h3 _ _).mpr hb] at hd'
    cases hd'
    have hk : MediaFile.kind dig lower ⟨within temp b, d, none⟩ = .ok .unknown := by
      unfold MediaFile.kind
      dsimp only
      rw [if_pos (by rw [List.length_take]; omega)]
    rcases hr with hr | ⟨offs, k, size, hk', _, _, hto⟩
    · unfold Music at hr; rw [hk] at hr; simp at hr
    · rw [hk] at hk'
      cases hk'
      simp [srsTold] at hto)
  refine ⟨fs', e, fun b' d' h => (h3 _ _).mpr h, fun more => ?_⟩
  rw [srsBad, if_pos hend, he]

/-- Nor for names with a "\" in them: the file is searched for under another name than it was written to. -/
theorem bad_backslash {dig : Nat → Bool} {lower upper : Str → Str} {txt : Bool} {temp : Str} {srr : Path} {fs : FS} {file : Bytes}
    {c : List Entry} {i : Info} {n : Str} (ht : TempFolder temp) (hs : fs srr = some file) (hc : Contents file c)
    (hi : info lower upper file = .ok i) (hlegal : ∀ e ∈ c, ∀ n, e.isStored n → PathName n)
    (hnew : ∀ b, fs (within temp b) = none) (hn : ∃ e ∈ c, e.isStored n) (hsrs : IsSrs (basename n)) (hbn : 0x5C ∈ basename n) :
    ∃ fs' e, handleSrr dig lower upper true txt temp srr fs = (fs', .error e) := by
  obtain ⟨fs', rs, h1, h2, h3⟩ := extract_flat (srr := srr) ht hs hc hlegal hnew
  obtain ⟨e, he⟩ := handle_verify (dig := dig) (txt := txt) hs hc hi hn (srs_lastElem hsrs) h1 (by
    rintro ⟨l, hl⟩
    obtain ⟨d, hd, _⟩ := badLoop_ok _ l hl n ((info_keys hc hi n).mpr hn) (isSrs_iff.mpr hsrs)
    rw [join_within ht (basename_no_slash n), h3] at hd
    obtain ⟨_, x, _, _, ⟨m, _, hm⟩, _⟩ := hd
    rw [← hm] at hbn
    have hb := (basename_suffix (backToSlash m)).mem hbn
    unfold backToSlash at hb
    obtain ⟨y, _, hy⟩ := List.mem_map.mp hb
    split at hy
    · simp at hy
    · rename_i hne; exact hne hy)
  exact ⟨fs', e, he⟩

/-- C105, all but SRR files with SRS files of one name in several folders, with "\" in their names, or that cannot be read:
srs_bad.py lists the text files that are there for samples and music, and the SRS files with a track that has no place in the
movie; it leaves all files as they are. -/
theorem bad_lists_partial {dig : Nat → Bool} {lower upper : Str → Str} {verify txt : Bool} {temp : Str} {srr : Path} {fs : FS} {file : Bytes}
    {c : List Entry} {i : Info} (ht : TempFolder temp) (hs : fs srr = some file) (hc : Contents file c)
    (hi : info lower upper file = .ok i) (hlegal : ∀ e ∈ c, ∀ n, e.isStored n → PathName n)
    (hback : ∀ e ∈ c, ∀ n, e.isStored n → IsSrs n → 0x5C ∉ n) (hnew : ∀ b, fs (within temp b) = none)
    (hdiff : ∀ e ∈ c, ∀ e' ∈ c, ∀ n n', e.isStored n → e'.isStored n' → lastElem n = lastElem n' → n = n')
    (hread : ∀ n d, FirstStored c n d → IsSrs (basename n) →
      Music dig lower (within temp (basename n)) d ∨ ∃ offs, Places dig lower (within temp (basename n)) d offs) :
    ∃ l, handleSrr dig lower upper verify txt temp srr fs = (fs, .ok l) ∧ ∀ x, x ∈ l ↔
      (txt = true ∧ (∃ e ∈ c, e.isStored x) ∧ TxtName x) ∨
      (verify = true ∧ IsSrs x ∧ ∃ n d offs, FirstStored c n d ∧ basename n = x ∧ Places dig lower (within temp x) d offs ∧ 0 ∈ offs) := by
  have base : ∀ b d, IsSrs b → (BaseFirst c b d ↔ ∃ n, FirstStored c n d ∧ basename n = b) := by
    intro b d hsrs
    constructor
    · rintro ⟨c1, e, c2, rfl, ⟨m, hm, rfl⟩, hd, hf⟩
      refine ⟨m, ⟨c1, e, c2, rfl, hm, hd, fun e' he' h => hf e' he' m h rfl⟩, ?_⟩
      rw [lastElem, backToSlash_id (hback e (by simp) m hm (lastElem_srs hsrs))]
    · rintro ⟨n, ⟨c1, e, c2, rfl, hn, hd, hf⟩, rfl⟩
      have hl : lastElem n = basename n := by rw [lastElem, backToSlash_id (hback e (by simp) n hn (srs_lastElem hsrs))]
      refine ⟨c1, e, c2, rfl, ⟨n, hn, hl⟩, hd, fun e' he' m hm h => ?_⟩
      have := hdiff e' (by simp [he']) e (by simp) m n hm hn (h.trans hl.symm)
      subst this
      exact hf e' he' hm
  obtain ⟨l, h1, h2⟩ := bad_lists (dig := dig) (verify := verify) (txt := txt) ht hs hc hi hlegal hback hnew (by
    intro b d hb hsrs
    obtain ⟨n, hn, rfl⟩ := (base b d hsrs).mp hb
    exact hread n d hn hsrs)
  refine ⟨l, h1, fun x => ?_⟩
  rw [h2 x]
  apply or_congr Iff.rfl
  constructor
  · rintro ⟨hv, hsrs, d, offs, hb, hp⟩
    obtain ⟨n, hn, he⟩ := (base x d hsrs).mp hb
    exact ⟨hv, hsrs, n, d, offs, hn, he, hp⟩
  · rintro ⟨hv, hsrs, n, d, offs, hn, he, hp⟩
    exact ⟨hv, hsrs, d, offs, (base x d hsrs).mpr ⟨n, hn, he⟩, hp⟩

/-! ### srs_size.py -/

theorem sizeOne_srs {dig : Nat → Bool} {lower : Str → Str} {limit : Int} {p : Path} {d : Bytes} {n : Nat}
    (he : lower (p.drop (p.length - 4)) = str ".srs") (h : SampleSize dig lower p d n) :
    sizeOne dig lower limit p d = .ok (if (n : Int) > limit then some (p, n) else none) := by
  obtain ⟨k, offs, hk, ht⟩ := h
  unfold sizeOne
  rw [if_pos he, hk, ok_bind, ht, ok_bind]
  dsimp only
  split <;> rfl

theorem sizeOne_path {dig : Nat → Bool} {lower : Str → Str} {limit : Int} {p : Path} {d : Bytes} {x : Path × Nat}
    (h : sizeOne dig lower limit p d = .ok (some x)) : x.1 = p := by
  unfold sizeOne at h
  split at h
  · rw [bind_eq_ok] at h
    obtain ⟨k, _, h⟩ := h
    rw [bind_eq_ok] at h
    obtain ⟨⟨size, _⟩, _, h⟩ := h
    dsimp only at h
    split at h
    · cases h
    · split at h
      · cases h; rfl
      · cases h
  · cases h

theorem endSrs_iff {lower : Str → Str} (hl : ∀ s, lower s = str ".srs" ↔ Is s (str ".srs")) (p : Path) :
    lower (p.drop (p.length - 4)) = str ".srs" ↔ ∃ s x, p = s ++ x ∧ Is x (str ".srs") := by
  rw [hl]
  constructor
  · intro h; exact ⟨p.take (p.length - 4), _, (List.take_append_drop _ _).symm, h⟩
  · rintro ⟨s, x, rfl, hx⟩
    have h4 : x.length = 4 := by
      have := congrArg List.length hx
      simpa [str] using this
    rw [List.length_append, h4, Nat.add_sub_cancel, List.drop_left' rfl]
    exact hx

/-- C105: when all the SRS files can be read, srs_size.py lists those of samples over the limit, in the order of the walk.  The
condition about `lower` says that only ASCII letters become the letters of the extension. -/
theorem size_lists {dig : Nat → Bool} {lower : Str → Str} {limit : Int} (hl : ∀ s, lower s = str ".srs" ↔ Is s (str ".srs"))
    (files : List (Path × Bytes))
    (h : ∀ f ∈ files, (∃ s x, f.1 = s ++ x ∧ Is x (str ".srs")) → ∃ n, SampleSize dig lower f.1 f.2 n) :
    ∃ l, srsSize dig lower limit files = (l, .ok ()) ∧ (l.map (·.1)).Sublist (files.map (·.1)) ∧
      ∀ p n, (p, n) ∈ l ↔ (∃ s x, p = s ++ x ∧ Is x (str ".srs")) ∧ (n : Int) > limit ∧ ∃ d, (p, d) ∈ files ∧ SampleSize dig lower p d n := by
  induction files with
  | nil => exact ⟨[], rfl, by simp, by simp⟩
  | cons f t ih =>
    obtain ⟨l, h1, h2, h3⟩ := ih fun f hf => h f (by simp [hf])
    obtain ⟨q, d⟩ := f
    rw [srsSize]
    by_cases he : ∃ s x, q = s ++ x ∧ Is x (str ".srs")
    · obtain ⟨n, hn⟩ := h (q, d) (by simp) he
      rw [sizeOne_srs ((endSrs_iff hl q).mpr he) hn]
      have uniq : ∀ n', SampleSize dig lower q d n' → n' = n := by
        rintro n' ⟨k', o', hk', ht'⟩
        obtain ⟨k, o, hk, ht⟩ := hn
        rw [hk] at hk'
        cases hk'
        rw [ht] at ht'
        cases ht'
        rfl
      by_cases hlim : (n : Int) > limit
      · rw [if_pos hlim]
        dsimp only
        rw [h1]
        refine ⟨_, rfl, by simpa using h2.cons₂ q, fun p n' => ?_⟩
        rw [List.mem_cons, h3, Prod.mk.injEq]
        constructor
        · rintro (⟨rfl, rfl⟩ | ⟨a, b, d', hd', hs'⟩)
          · exact ⟨he, hlim, d, by simp, hn⟩
          · exact ⟨a, b, d', by simp [hd'], hs'⟩
        · rintro ⟨a, b, d', hd', hs'⟩
          rcases List.mem_cons.mp hd' with hd' | hd'
          · cases hd'
            exact Or.inl ⟨rfl, uniq n' hs'⟩
          · exact Or.inr ⟨a, b, d', hd', hs'⟩
      · rw [if_neg hlim]
        refine ⟨l, h1, h2.cons q, fun p n' => ?_⟩
        rw [h3]
        constructor
        · rintro ⟨a, b, d', hd', hs'⟩
          exact ⟨a, b, d', by simp [hd'], hs'⟩
        · rintro ⟨a, b, d', hd', hs'⟩
          rcases List.mem_cons.mp hd' with hd' | hd'
          · cases hd'
            rw [uniq n' hs'] at b
            exact absurd b hlim
          · exact ⟨a, b, d', hd', hs'⟩
    · have h0 : sizeOne dig lower limit q d = .ok none := by
        unfold sizeOne
        rw [if_neg (fun h => he ((endSrs_iff hl q).mp h))]
        rfl
      rw [h0]
      refine ⟨l, h1, h2.cons q, fun p n' => ?_⟩
      rw [h3]
      constructor
      · rintro ⟨a, b, d', hd', hs'⟩
        exact ⟨a, b, d', by simp [hd'], hs'⟩
      · rintro ⟨a, b, d', hd', hs'⟩
        rcases List.mem_cons.mp hd' with hd' | hd'
        · cases hd'
          exact absurd a he
        · exact ⟨a, b, d', hd', hs'⟩

/-- C105 does not hold for every tree of files: an SRS file of fewer than 14 bytes ends the run, and nothing after it is listed. -/
theorem size_stops {dig : Nat → Bool} {lower : Str → Str} {limit : Int} {p : Path} {d : Bytes}
    (he : lower (p.drop (p.length - 4)) = str ".srs") (hd : d.length < 14) (before after : List (Path × Bytes)) :
    ∃ l e, srsSize dig lower limit (before ++ (p, d) :: after) = (l, .error e) ∧
      (l.map (·.1)).Sublist (before.map (·.1)) := by
  have hone : sizeOne dig lower limit p d = .error .attrError := by
    have hk : MediaFile.kind dig lower ⟨p, d, none⟩ = .ok .unknown := by
      unfold MediaFile.kind
      dsimp only
      rw [if_pos (by rw [List.length_take]; omega)]
    unfold sizeOne
    rw [if_pos he, hk, ok_bind]
    rfl
  induction before with
  | nil => exact ⟨[], .attrError, by rw [List.nil_append, srsSize, hone], by simp⟩
  | cons f t ih =>
    obtain ⟨q, d'⟩ := f
    obtain ⟨l, e, h1, h2⟩ := ih
    rw [List.cons_append, srsSize]
    cases hq : sizeOne dig lower limit q d' with
    | error e' => exact ⟨[], e', rfl, by simp⟩
    | ok o =>
      cases o with
      | none => exact ⟨l, e, h1, h2.cons q⟩
      | some x =>
        dsimp only
        rw [h1]
        refine ⟨_, e, rfl, ?_⟩
        rw [List.map_cons, List.map_cons, sizeOne_path hq]
        exact h2.cons₂ q

/-- C105: the files that are printed by srs_bad.py for a whole tree: those SRR files, in the order of the walk, for which there is
something to list. -/
theorem bad_run {dig : Nat → Bool} {lower upper : Str → Str} {verify txt : Bool} {temp : Str} {fs : FS}
    (hl : ∀ s, lower s = str ".srr" ↔ Is s (str ".srr")) (files : List Path)
    (h : ∀ p ∈ files, (∃ s x, p = s ++ x ∧ Is x (str ".srr")) → ∃ l, handleSrr dig lower upper verify txt temp p fs = (fs, .ok l)) :
    ∃ out, srsBad dig lower upper verify txt temp files fs = (out, .ok (), fs) ∧ (out.map (·.1)).Sublist files ∧
      ∀ p l, (p, l) ∈ out ↔ (∃ s x, p = s ++ x ∧ Is x (str ".srr")) ∧ p ∈ files ∧ l ≠ [] ∧
        handleSrr dig lower upper verify txt temp p fs = (fs, .ok l) := by
  have hend : ∀ p : Path, lower (p.drop (p.length - 4)) = str ".srr" ↔ ∃ s x, p = s ++ x ∧ Is x (str ".srr") := by
    intro p
    rw [hl]
    constructor
    · intro h; exact ⟨p.take (p.length - 4), _, (List.take_append_drop _ _).symm, h⟩
    · rintro ⟨s, x, rfl, hx⟩
      have h4 : x.length = 4 := by
        have := congrArg List.length hx
        simpa [str] using this
      rw [List.length_append, h4, Nat.add_sub_cancel, List.drop_left' rfl]
      exact hx
  induction files with
  | nil => exact ⟨[], rfl, by simp, by simp⟩
  | cons q t ih =>
    obtain ⟨out, h1, h2, h3⟩ := ih fun p hp => h p (by simp [hp])
    rw [srsBad]
    by_cases he : ∃ s x, q = s ++ x ∧ Is x (str ".srr")
    · obtain ⟨l, hq⟩ := h q (by simp) he
      rw [if_pos ((hend q).mpr he), hq]
      dsimp only
      rw [h1]
      dsimp only
      by_cases h0 : l = []
      · rw [if_pos h0]
        refine ⟨out, rfl, h2.cons q, fun p l' => ?_⟩
        rw [h3]
        constructor
        · rintro ⟨a, b, d⟩; exact ⟨a, by simp [b], d⟩
        · rintro ⟨a, b, d, e⟩
          rcases List.mem_cons.mp b with rfl | b
          · rw [hq] at e; cases e; exact absurd h0 d
          · exact ⟨a, b, d, e⟩
      · rw [if_neg h0]
        refine ⟨_, rfl, by simpa using h2.cons₂ q, fun p l' => ?_⟩
        rw [List.mem_cons, h3, Prod.mk.injEq]
        constructor
        · rintro (⟨rfl, rfl⟩ | ⟨a, b, d⟩)
          · exact ⟨he, by simp, h0, hq⟩
          · exact ⟨a, by simp [b], d⟩
        · rintro ⟨a, b, d, e⟩
          rcases List.mem_cons.mp b with rfl | b
          · rw [hq] at e; cases e; exact Or.inl ⟨rfl, rfl⟩
          · exact Or.inr ⟨a, b, d, e⟩
    · rw [if_neg (fun h => he ((hend q).mp h))]
      refine ⟨out, h1, h2.cons q, fun p l' => ?_⟩
      rw [h3]
      constructor
      · rintro ⟨a, b, d⟩; exact ⟨a, by simp [b], d⟩
      · rintro ⟨a, b, d⟩
        rcases List.mem_cons.mp b with rfl | b
        · exact absurd a he
        · exact ⟨a, b, d⟩

/-! ### What the SRS files of samples tell -/

/-- C105: the SRS of a stream that was not compared with the movie has a track without place. -/
theorem stream_unchecked {dig : Nat → Bool} {lower : Str → Str} {app name : Str} {sample srs : Bytes} {big : Bool} {p : Path}
    (h : srsCreate app name sample big none = .ok srs) :
    Places dig lower p srs [0] ∧ SampleSize dig lower p srs sample.length := by
  have hk := stream_srs_kind (dig := dig) (lower := lower) (srsPath := p) h
  unfold srsCreate at h
  split at h
  · simp at h
  unfold streamProfile at h
  rw [calculate_crc32_correct, ok_bind] at h
  simp only [pure_eq_ok, ok_bind] at h
  have hload := load_created h (by simp) (by simp)
  have ht : srsTold .stream srs = .ok (some sample.length, [0]) := by
    unfold srsTold
    dsimp only
    rw [hload, ok_bind]
    rfl
  exact ⟨⟨_, _, hk, by simp, by simp, ht⟩, ⟨_, _, hk, ht⟩⟩

/-- C105: the SRS of a stream that was compared with the movie has the place where its first bytes are first found. -/
theorem stream_checked {dig : Nat → Bool} {lower : Str → Str} {app name : Str} {sample main srs : Bytes} {big : Bool} {p : Path} {k : Nat}
    (hne : sample ≠ []) (hk : FirstAt (sample.take 256) main k) (h : srsCreate app name sample big (some main) = .ok srs) :
    Places dig lower p srs [(k : Int)] ∧ SampleSize dig lower p srs sample.length := by
  have hkind := stream_srs_kind (dig := dig) (lower := lower) (srsPath := p) h
  have hsig : sample.take 256 ≠ [] := by
    intro h'
    rcases List.take_eq_nil_iff.mp h' with h' | h'
    · omega
    · exact hne h'
  have hsl : (sample.take 256).length < 2 ^ 16 := by simp; omega
  unfold srsCreate at h
  split at h
  · simp at h
  unfold streamProfile at h
  rw [calculate_crc32_correct, ok_bind] at h
  simp only [pure_eq_ok, ok_bind] at h
  have := (find_sets_offset (tracks := [(1, { number := 1, dataLength := sample.length, sig := sample.take 256 })])
    (t := { number := 1, dataLength := sample.length, sig := sample.take 256 }) (main := main) rfl hsig hsl).1 k hk
  rw [this, ok_bind] at h
  have hk1 : ((k : Int) == -1) = false := by rw [beq_eq_false_iff_ne]; omega
  simp only [Tracks.put, if_true, List.any_cons, List.any_nil, hk1, Bool.or_false, Bool.false_eq_true, if_false,
    List.filter_cons, List.filter_nil, ok_bind] at h
  rw [if_pos (by simpa using hsig)] at h
  have hload := load_created h (by simp) (by simp)
  have ht : srsTold .stream srs = .ok (some sample.length, [(k : Int)]) := by
    unfold srsTold
    dsimp only
    rw [hload, ok_bind]
    rfl
  exact ⟨⟨_, _, hkind, by simp, by simp, ht⟩, ⟨_, _, hkind, ht⟩⟩

/-- C105 does not tell the two apart in every case: a stream that is the very beginning of the movie was found, but is listed
as if it had not been compared. -/
theorem stream_start_listed {dig : Nat → Bool} {lower : Str → Str} {app name : Str} {sample post srs : Bytes} {big : Bool} {p : Path}
    (hne : sample ≠ []) (h : srsCreate app name sample big (some (sample ++ post)) = .ok srs) :
    Places dig lower p srs [0] ∧ srsReconstruct srs (sample ++ post) false = .ok ⟨sample, sample.length, (crc32 sample 0).toNat, true⟩ := by
  have h0 : FirstAt (sample.take 256) (sample ++ post) 0 := by
    refine ⟨⟨[], sample.drop 256 ++ post, ?_, rfl⟩, fun j _ => Nat.zero_le j⟩
    rw [List.nil_append, ← List.append_assoc, List.take_append_drop]
  exact ⟨(stream_checked hne h0 h).1, stream_sample_rebuilt_partial h hne (Or.inr rfl) h0 ⟨[], post, rfl, rfl⟩⟩

/-- C105: the SRS of an AVI sample that was not compared with the movie tells its size, and its tracks have no place. -/
theorem avi_unchecked {dig : Nat → Bool} {lower : Str → Str} {app name path p : Str} {parts : List AviPart} {big : Bool} {srs : Bytes}
    (hp : PlainAvi parts) (hk : MediaFile.kind dig lower ⟨path, aviBytes parts, none⟩ = .ok .avi)
    (h : srsAviCreate app name (aviBytes parts) big none = .ok srs) (hl : 14 ≤ srs.length) (hname : ¬ str ".mp3" <:+ p) :
    ∃ offs, Places dig lower p srs offs ∧ SampleSize dig lower p srs (aviBytes parts).length ∧ (∀ o ∈ offs, o = 0) ∧
      (0 ∈ offs ↔ ∃ a ∈ parts, ∃ n, a.track = some n) := by
  have hkind := avi_srs_kind hk h hl hname
  obtain ⟨⟨ts, hload, _, hts⟩, _⟩ := avi_strip_rebuild_partial hp h
  have ht : srsTold .avi srs = .ok (some (aviBytes parts).length, ts.map fun t => t.2.matchOffset) := by
    unfold srsTold
    dsimp only
    rw [hload, ok_bind]
    rfl
  refine ⟨_, ⟨_, _, hkind, by simp, by simp, ht⟩, ⟨_, _, hkind, ht⟩, ?_, ?_⟩
  · intro o ho
    obtain ⟨⟨n, t⟩, hm, rfl⟩ := List.mem_map.mp ho
    rw [((hts n t).mp hm).2]
  · constructor
    · intro ho
      obtain ⟨⟨n, t⟩, hm, _⟩ := List.mem_map.mp ho
      obtain ⟨a, ha, hn⟩ := ((hts n t).mp hm).1
      exact ⟨a, ha, n, hn⟩
    · rintro ⟨a, ha, n, hn⟩
      exact List.mem_map.mpr ⟨(n, _), (hts n _).mpr ⟨⟨a, ha, hn⟩, rfl⟩, rfl⟩

/-- C105: the same for MP4. -/
theorem mp4_unchecked {dig : Nat → Bool} {lower : Str → Str} {before after : List MovTop} {form : MovForm} {media : Bytes}
    {tracks : List MovLayout} (hp : PlainMp4 before form media after tracks) (hid : ∀ t ∈ tracks, t.id < 2 ^ 16)
    {app name path p : Str} {big : Bool} {srs : Bytes}
    (hk : MediaFile.kind dig lower ⟨path, mp4Bytes before form media after, none⟩ = .ok .mp4)
    (hm : ¬ [0x33, 0x67, 0x70, 0x35, 0x6D, 0x64, 0x61, 0x74] <+: (mp4Bytes before form media after))
    (h : srsMp4Create app name (mp4Bytes before form media after) big none = .ok srs) (hl : 14 ≤ srs.length) (hbig : srs.length < 2 ^ 63) :
    Places dig lower p srs (tracks.map fun _ => 0) ∧ SampleSize dig lower p srs (mp4Bytes before form media after).length := by
  have hkind := mp4_srs_kind (srsPath := p) hk hm h hl
  have hload := (mp4_strip_rebuild_partial hp hid h hbig).1
  have ht : srsTold .mp4 srs = .ok (some (mp4Bytes before form media after).length, tracks.map fun _ => 0) := by
    unfold srsTold
    dsimp only
    rw [hload, ok_bind]
    simp [Function.comp_def, pure_eq_ok]
  exact ⟨⟨_, _, hkind, by simp, by simp, ht⟩, ⟨_, _, hkind, ht⟩⟩

/-- C105: the same for MKV. -/
theorem mkv_unchecked {dig : Nat → Bool} {lower : Str → Str} {lead info media : List MkvTop} {seg : Bytes} (hp : PlainMkv lead seg info media)
    (hn : ∀ n, HasTrack (mkvFine (lead ++ .part (.enter segmentId seg) :: (info ++ media))) n → n < 2 ^ 16)
    {app name path p : Str} {big : Bool} {srs : Bytes}
    (hk : MediaFile.kind dig lower ⟨path, mkvFile (lead ++ .part (.enter segmentId seg) :: (info ++ media)), none⟩ = .ok .mkv)
    (h : srsMkvCreate app name (mkvFile (lead ++ .part (.enter segmentId seg) :: (info ++ media))) big none = .ok srs) (hl : 14 ≤ srs.length) :
    ∃ offs, Places dig lower p srs offs ∧
      SampleSize dig lower p srs (mkvFile (lead ++ .part (.enter segmentId seg) :: (info ++ media))).length ∧ (∀ o ∈ offs, o = 0) ∧
      (0 ∈ offs ↔ ∃ n, HasTrack (mkvFine (lead ++ .part (.enter segmentId seg) :: (info ++ media))) n) := by
  have hkind := mkv_srs_kind (srsPath := p) hk h hl
  obtain ⟨⟨ts, hload, hts⟩, _⟩ := mkv_strip_rebuild_partial hp hn h
  have ht : srsTold .mkv srs = .ok (some (mkvFile (lead ++ .part (.enter segmentId seg) :: (info ++ media))).length, ts.map fun t => t.2.offset) := by
    unfold srsTold
    dsimp only
    rw [hload, ok_bind]
    rfl
  refine ⟨_, ⟨_, _, hkind, by simp, by simp, ht⟩, ⟨_, _, hkind, ht⟩, ?_, ?_⟩
  · intro o ho
    obtain ⟨⟨n, t⟩, hm, rfl⟩ := List.mem_map.mp ho
    exact (hts.known n t (movGet_of_mem hts.distinct hm)).2.2.2.2.1
  · constructor
    · intro ho
      obtain ⟨⟨n, t⟩, hm, _⟩ := List.mem_map.mp ho
      exact ⟨n, (hts.which n).mp ⟨t, movGet_of_mem hts.distinct hm⟩⟩
    · rintro ⟨n, hn⟩
      obtain ⟨t, ht⟩ := (hts.which n).mpr hn
      exact List.mem_map.mpr ⟨(n, t), movGet_eq_some ht, (hts.known n t ht).2.2.2.2.1⟩

/-! ### Examples -/

/-- The SRS of a stream that was found behind the first byte of the movie. -/
@[irreducible] def exFoundSrs : Bytes := (srsCreate (str "app") (str "x.vob") [1, 2, 3, 4, 5] false (some [9, 1, 2, 3, 4, 5])).toOption.getD []

/-- The SRS of the same stream, not compared. -/
@[irreducible] def exNewSrs : Bytes := (srsCreate (str "app") (str "x.vob") [1, 2, 3, 4, 5] false none).toOption.getD []

theorem exFound_made : srsCreate (str "app") (str "x.vob") [1, 2, 3, 4, 5] false (some [9, 1, 2, 3, 4, 5]) = .ok exFoundSrs := by
  decide +kernel

theorem exNew_made : srsCreate (str "app") (str "x.vob") [1, 2, 3, 4, 5] false none = .ok exNewSrs := by
  decide +kernel

theorem exFound_first : FirstAt (([1, 2, 3, 4, 5] : Bytes).take 256) [9, 1, 2, 3, 4, 5] 1 := by
  refine ⟨⟨[9], [], rfl, rfl⟩, fun j hj => ?_⟩
  cases j with
  | zero => rw [occursAt_iff] at hj; simp at hj
  | succ j => omega

def exBadEntries : List Entry := exTool [exStored "s/a.srs" exFoundSrs, exStored "b.srs" exNewSrs, exStored "c.avi.txt" [1]]

theorem exBad_contents : Contents (entriesBytes exBadEntries) exBadEntries := contents_of_check (by decide +kernel)

theorem exBad_names {e : Entry} {n : Str} (he : e ∈ exBadEntries) (h : e.isStored n) :
    (n = str "s/a.srs" ∧ e.data = exFoundSrs) ∨ (n = str "b.srs" ∧ e.data = exNewSrs) ∨ n = str "c.avi.txt" := by
  obtain ⟨hb, s, hk⟩ := h
  simp only [exBadEntries, exTool, List.mem_cons, List.not_mem_nil, or_false] at he
  rcases he with rfl | rfl | rfl | rfl
  · simp at hk
  · simp [exStored] at hk; exact Or.inl ⟨hk.2.symm, rfl⟩
  · simp [exStored] at hk; exact Or.inr (Or.inl ⟨hk.2.symm, rfl⟩)
  · simp [exStored] at hk; exact Or.inr (Or.inr hk.2.symm)

/-- The hypotheses of `bad_lists_partial` hold for an SRR file with two SRS files and a text file: the stream that was not
compared and the text file are listed. -/
example : ∃ l, handleSrr (fun _ => false) (List.map lowerA) id true true (str "/tmp/t") (str "a.srr") (exSrsFs exBadEntries) =
      (exSrsFs exBadEntries, .ok l) ∧ str "b.srs" ∈ l ∧ str "c.avi.txt" ∈ l ∧ str "a.srs" ∉ l := by
  obtain ⟨i, hi⟩ : ∃ i, info (List.map lowerA) id (entriesBytes exBadEntries) = .ok i := by
    have : (info (List.map lowerA) id (entriesBytes exBadEntries)).toOption.isSome = true := by decide +kernel
    cases h : info (List.map lowerA) id (entriesBytes exBadEntries) with
    | error e => rw [h] at this; simp [Except.toOption] at this
    | ok i => exact ⟨i, rfl⟩
  have hlegal : ∀ e ∈ exBadEntries, ∀ n, e.isStored n → PathName n := by
    intro e he n hn
    rcases exBad_names he hn with ⟨rfl, _⟩ | ⟨rfl, _⟩ | rfl <;> (unfold PathName PlainElem; decide)
  have hdata : ∀ n d, FirstStored exBadEntries n d → IsSrs (basename n) → (n = str "s/a.srs" ∧ d = exFoundSrs) ∨ (n = str "b.srs" ∧ d = exNewSrs) := by
    rintro n d ⟨c1, e, c2, hc, hn, rfl, _⟩ hsrs
    rcases exBad_names (e := e) (by rw [hc]; simp) hn with h | h | rfl
    · exact Or.inl h
    · exact Or.inr h
    · rw [← isSrs_iff] at hsrs; exact absurd hsrs (by decide)
  have hfound := fun p => (stream_checked (dig := fun _ => false) (lower := List.map lowerA) (p := p) (by decide) exFound_first exFound_made).1
  have hnew := fun p => (stream_unchecked (dig := fun _ => false) (lower := List.map lowerA) (p := p) exNew_made).1
  obtain ⟨l, h1, h2⟩ := bad_lists_partial (dig := fun _ => false) (lower := List.map lowerA) (upper := id) (verify := true) (txt := true)
    (temp := str "/tmp/t") (srr := str "a.srr") (fs := exSrsFs exBadEntries) (by unfold TempFolder; decide) (by rfl) exBad_contents hi hlegal
    (fun e he n hn _ => by rcases exBad_names he hn with ⟨rfl, _⟩ | ⟨rfl, _⟩ | rfl <;> decide)
    (fun b => by unfold exSrsFs FS.set within; rw [if_neg]; intro h; simp [str] at h)
    (fun e he e' he' n n' hn hn' h => by
      rcases exBad_names he hn with ⟨rfl, _⟩ | ⟨rfl, _⟩ | rfl <;> rcases exBad_names he' hn' with ⟨rfl, _⟩ | ⟨rfl, _⟩ | rfl <;>
        first | rfl | exact absurd h (by decide))
    (fun n d hn hs => by
      rcases hdata n d hn hs with ⟨rfl, rfl⟩ | ⟨rfl, rfl⟩
      · exact Or.inr ⟨_, hfound _⟩
      · exact Or.inr ⟨_, hnew _⟩)
  refine ⟨l, h1, (h2 _).mpr (Or.inr ⟨rfl, ⟨str "b", rfl⟩, str "b.srs", exNewSrs, [0], ?_, rfl, hnew _, by simp⟩),
    (h2 _).mpr (Or.inl ⟨rfl, ⟨exStored "c.avi.txt" [1], by simp [exBadEntries, exTool], rfl, _, rfl⟩, str "c", str ".avi", by simp, rfl⟩), ?_⟩
  · refine ⟨exTool [exStored "s/a.srs" exFoundSrs], exStored "b.srs" exNewSrs, [exStored "c.avi.txt" [1]], rfl, ⟨rfl, _, rfl⟩, rfl, ?_⟩
    intro e he hn
    simp only [exTool, List.mem_cons, List.not_mem_nil, or_false] at he
    obtain ⟨_, s, hk⟩ := hn
    rcases he with rfl | rfl
    · simp at hk
    · simp [exStored, str] at hk
  · intro hm
    rcases (h2 _).mp hm with ⟨_, ⟨e, he, hn⟩, _⟩ | ⟨_, _, n, d, offs, hn, hb, ⟨k, size, hk, _, _, hto⟩, h0⟩
    · rcases exBad_names he hn with ⟨h, _⟩ | ⟨h, _⟩ | h <;> exact absurd h (by decide)
    · rcases hdata n d hn (by rw [hb]; exact ⟨str "a", rfl⟩) with ⟨rfl, rfl⟩ | ⟨rfl, rfl⟩
      · obtain ⟨k', size', hk', _, _, hto'⟩ := hfound (within (str "/tmp/t") (str "a.srs"))
        rw [hk] at hk'
        cases hk'
        rw [hto] at hto'
        cases hto'
        simp at h0
      · exact absurd hb (by decide)

/-- C105 does not hold for SRS files of one name in several folders: the second one has no place, but is not listed. -/
theorem bad_same_name :
    (handleSrr (fun _ => false) (List.map lowerA) id true false (str "/tmp/t") (str "a.srr")
      (exSrsFs (exTool [exStored "s/a.srs" exFoundSrs, exStored "t/a.srs" exNewSrs]))).2 = .ok [] ∧
    ∀ p, Places (fun _ => false) (List.map lowerA) p exNewSrs [0] :=
  ⟨by decide +kernel, fun _ => (stream_unchecked exNew_made).1⟩

/-- A tree with two SRS files: only the one over the limit is listed. -/
example : srsSize (fun _ => false) (List.map lowerA) 4 [(str "d/x.SRS", exNewSrs), (str "d/y.txt", []), (str "e.srs", exFoundSrs)] =
    ([(str "d/x.SRS", 5), (str "e.srs", 5)], .ok ()) ∧
    srsSize (fun _ => false) (List.map lowerA) 5 [(str "d/x.SRS", exNewSrs)] = ([], .ok ()) := by decide +kernel

example : ∀ s, s.map lowerA = str ".srs" ↔ Is s (str ".srs") := fun _ => Iff.rfl

end Rescene.Props
