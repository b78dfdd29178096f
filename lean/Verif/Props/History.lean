import Verif.Spec.History
import Verif.Props.Unchanged
import Verif.Props.Extract
/-
C111: the stored files after any history of edits, and what is extracted then.
-/
namespace Rescene.Props
open Rescene Rescene.Spec

theorem before_append {c1 c2 : List Entry} (h : ∀ e ∈ c1, e.btype ≠ 0x71) : beforeRar (c1 ++ c2) = c1 ++ beforeRar c2 := by
  unfold beforeRar
  rw [List.takeWhile_append_of_pos]
  intro e he
  simpa using h e he

theorem from_append {c1 c2 : List Entry} (h : ∀ e ∈ c1, e.btype ≠ 0x71) : fromRar (c1 ++ c2) = fromRar c2 := by
  unfold fromRar
  rw [List.dropWhile_append_of_pos]
  intro e he
  simpa using h e he

theorem split_rar {e : Entry} (h : e.btype = 0x71) (t : List Entry) : beforeRar (e :: t) = [] ∧ fromRar (e :: t) = e :: t := by
  simp [beforeRar, fromRar, h]

theorem split_other {e : Entry} (h : e.btype ≠ 0x71) (t : List Entry) :
    beforeRar (e :: t) = e :: beforeRar t ∧ fromRar (e :: t) = fromRar t := by
  simp [beforeRar, fromRar, h]

theorem before_from (c : List Entry) : beforeRar (fromRar c) = [] ∧ fromRar (fromRar c) = fromRar c := by
  induction c with
  | nil => exact ⟨rfl, rfl⟩
  | cons e t ih =>
    by_cases he : e.btype = 0x71
    · rw [(split_rar he t).2]
      exact split_rar he t
    · rw [(split_other he t).2]
      exact ih

theorem before_ne {c : List Entry} : ∀ e ∈ beforeRar c, e.btype ≠ 0x71 := by
  induction c with
  | nil => simp [beforeRar]
  | cons x t ih =>
    intro e he
    by_cases hx : x.btype = 0x71
    · rw [(split_rar hx t).1] at he; simp at he
    · rw [(split_other hx t).1] at he
      rcases List.mem_cons.mp he with rfl | he
      · exact hx
      · exact ih e he

theorem adds_files {news : List NewFile} : ∀ {adds : List Entry}, newEntries news = .ok adds →
    adds.filterMap storedFile = news.filterMap addedFile ∧
      ∀ e ∈ adds, e.btype ≠ 0x71 := by
  induction news with
  | nil => intro adds h; simp only [newEntries, Except.ok.injEq] at h; subst h; exact ⟨rfl, by simp⟩
  | cons f t ih =>
    intro adds h
    simp only [newEntries, bind_eq_ok, pure_eq_ok, Except.ok.injEq] at h
    obtain ⟨e, he, r, hr, rfl⟩ := h
    simp only [newEntry, bind_eq_ok, pure_eq_ok, Except.ok.injEq] at he
    obtain ⟨d, hd, raw, _, rfl⟩ := he
    obtain ⟨i1, i2⟩ := ih hr
    constructor
    · have h1 : addedFile f = some (f.1, d) := by simp [addedFile, hd]
      rw [List.filterMap_cons_some h1, ← i1]
      simp [storedFile]
    · intro e he
      rcases List.mem_cons.mp he with rfl | he
      · simp
      · exact i2 e he

theorem filter_files (names : List Str) (c : List Entry) :
    (c.filter (fun e => !e.isOneOf names)).filterMap storedFile = (c.filterMap storedFile).filter (fun f => !names.contains f.1) := by
  induction c with
  | nil => rfl
  | cons e t ih =>
    have : (storedFile e = none ∧ e.isOneOf names = false) ∨ (∃ n d, storedFile e = some (n, d) ∧ e.isOneOf names = names.contains n) := by
      unfold storedFile Entry.isOneOf
      cases hk : e.kind with
      | stored s n =>
        dsimp only
        by_cases hb : e.btype = 0x6A
        · right
          exact ⟨n, e.data, by rw [if_pos hb], by rw [beq_iff_eq.mpr hb, Bool.true_and]⟩
        · left
          exact ⟨by rw [if_neg hb], by rw [beq_eq_false_iff_ne.mpr hb, Bool.false_and]⟩
      | _ => left; exact ⟨rfl, rfl⟩
    rcases this with ⟨h1, h2⟩ | ⟨n, d, h1, h2⟩
    · rw [List.filter_cons_of_pos (by simp [h2])]
      simp [List.filterMap_cons, h1, ih]
    · cases hn : names.contains n with
      | true =>
        rw [List.filter_cons_of_neg (by rw [h2, hn]; simp), List.filterMap_cons_some h1,
          List.filter_cons_of_neg (by show ¬ (!names.contains n) = true; rw [hn]; simp), ih]
      | false =>
        rw [List.filter_cons_of_pos (by rw [h2, hn]; rfl), List.filterMap_cons_some h1, List.filterMap_cons_some h1,
          List.filter_cons_of_pos (by show (!names.contains n) = true; rw [hn]; rfl), ih]

theorem filter_split (c : List Entry) (p : Entry → Bool) (hp : ∀ e, e.btype = 0x71 → p e = true) :
    beforeRar (c.filter p) = (beforeRar c).filter p ∧ fromRar (c.filter p) = (fromRar c).filter p := by
  induction c with
  | nil => exact ⟨rfl, rfl⟩
  | cons e t ih =>
    by_cases he : e.btype = 0x71
    · rw [List.filter_cons_of_pos (hp e he), (split_rar he _).1, (split_rar he _).2, (split_rar he _).1, (split_rar he _).2,
        List.filter_cons_of_pos (hp e he)]
      exact ⟨rfl, rfl⟩
    · rw [(split_other he t).1, (split_other he t).2]
      by_cases hq : p e = true
      · rw [List.filter_cons_of_pos hq, List.filter_cons_of_pos hq, (split_other he _).1, (split_other he _).2, ih.1, ih.2]
        exact ⟨rfl, rfl⟩
      · rw [List.filter_cons_of_neg hq, List.filter_cons_of_neg hq]
        exact ih

theorem renameFirst_skip {name newName : Str} {l1 l2 : List (Str × Bytes)} (h : ∀ f ∈ l1, f.1 ≠ name) :
    renameFirst name newName (l1 ++ l2) = l1 ++ renameFirst name newName l2 := by
  induction l1 with
  | nil => rfl
  | cons f t ih =>
    obtain ⟨n, d⟩ := f
    simp only [List.cons_append, renameFirst]
    rw [if_neg (h (n, d) (by simp)), ih (fun x hx => h x (by simp [hx]))]

theorem notStored_files {c : List Entry} {name : Str} (h : ∀ e ∈ c, ¬ e.isStored name) : ∀ f ∈ c.filterMap storedFile, f.1 ≠ name := by
  intro f hf hn
  obtain ⟨e, he, hs⟩ := List.mem_filterMap.mp hf
  refine h e he ?_
  unfold storedFile at hs
  split at hs
  · rename_i s n hk
    split at hs
    · rename_i hb
      simp only [Option.some.injEq] at hs
      subst hs
      exact ⟨hb, s, by rw [hk, ← hn]⟩
    · simp at hs
  · simp at hs

/-- The stored files after an edit are those that the edit of the lists gives. -/
theorem edit_storedIn {c c' : List Entry} {e : Edit} (h : EntriesAfter c c' e) : storedIn c' = (storedIn c).edit e := by
  cases e with
  | add storeFiles news =>
    obtain ⟨adds, hadds, rfl⟩ := h
    obtain ⟨a1, a2⟩ := adds_files hadds
    have hb : ∀ e ∈ beforeRar c ++ adds, e.btype ≠ 0x71 := by
      intro e he
      rcases List.mem_append.mp he with he | he
      · exact before_ne e he
      · exact a2 e he
    unfold storedIn Stored.edit
    rw [before_append hb, from_append hb, (before_from c).1, (before_from c).2, List.append_nil, List.filterMap_append, a1]
  | remove names =>
    have h' : c' = c.filter (fun e => !e.isOneOf names) := h
    subst h'
    have hs := filter_split c (fun e => !e.isOneOf names) (by
      intro e he
      unfold Entry.isOneOf
      split
      · simp [he]
      · rfl)
    unfold storedIn Stored.edit
    rw [hs.1, hs.2, filter_files, filter_files]
  | rename name newName =>
    obtain ⟨c1, e, c2, raw, rfl, he, hfirst, _, rfl⟩ := h
    obtain ⟨hb, size, hk⟩ := he
    have hfe : storedFile e = some (name, e.data) := by simp [storedFile, hk, hb]
    have hfe' : storedFile ⟨0x6A, .stored e.data.length newName, raw, e.data⟩ = some (newName, e.data) := by simp [storedFile]
    by_cases h71 : ∀ x ∈ c1, x.btype ≠ 0x71
    · have hcons : ∀ x : Entry, x.btype = 0x6A → beforeRar (x :: c2) = x :: beforeRar c2 ∧ fromRar (x :: c2) = fromRar c2 := by
        intro x hx
        constructor
        · exact List.takeWhile_cons_of_pos (by simp [hx])
        · exact List.dropWhile_cons_of_pos (by simp [hx])
      unfold storedIn Stored.edit
      dsimp only
      rw [before_append h71, before_append h71, from_append h71, from_append h71, (hcons e hb).1, (hcons e hb).2, (hcons _ rfl).1, (hcons _ rfl).2,
        List.filterMap_append, List.filterMap_cons_some hfe', List.filterMap_append, List.filterMap_cons_some hfe, if_pos (by simp),
        renameFirst_skip (notStored_files hfirst)]
      simp [renameFirst]
    · obtain ⟨d1, d2, x, rfl, hd, hx⟩ : ∃ d1 d2 x, c1 = d1 ++ x :: d2 ∧ (∀ y ∈ d1, y.btype ≠ 0x71) ∧ x.btype = 0x71 := by
        clear hfirst
        induction c1 with
        | nil => simp at h71
        | cons y t ih =>
          by_cases hy : y.btype = 0x71
          · exact ⟨[], t, y, rfl, by simp, hy⟩
          · obtain ⟨d1, d2, x, rfl, h1, h2⟩ := ih (fun ha => h71 (fun z hz => by
              rcases List.mem_cons.mp hz with rfl | hz
              · exact hy
              · exact ha z hz))
            refine ⟨y :: d1, d2, x, rfl, fun z hz => ?_, h2⟩
            rcases List.mem_cons.mp hz with rfl | hz
            · exact hy
            · exact h1 z hz
      have hcons : ∀ l : List Entry, beforeRar (x :: l) = [] ∧ fromRar (x :: l) = x :: l := by
        intro l
        have h1 : ¬ (decide (x.btype ≠ 0x71) = true) := by simp [hx]
        exact ⟨List.takeWhile_cons_of_neg h1, List.dropWhile_cons_of_neg h1⟩
      have hn1 : ∀ f ∈ d1.filterMap storedFile, f.1 ≠ name := notStored_files (fun e he => hfirst e (by simp [he]))
      have hn2 : ∀ f ∈ (x :: d2).filterMap storedFile, f.1 ≠ name := notStored_files (fun e he => hfirst e (by
        rcases List.mem_cons.mp he with rfl | he <;> simp [*]))
      unfold storedIn Stored.edit
      dsimp only
      rw [List.append_assoc, List.append_assoc, List.cons_append, List.cons_append, before_append hd, before_append hd, from_append hd,
        from_append hd, (hcons _).1, (hcons _).2, (hcons _).1, (hcons _).2, List.append_nil, if_neg (by
          intro hm
          obtain ⟨f, hf, hfn⟩ := List.mem_map.mp hm
          exact hn1 f hf hfn), ← List.cons_append, ← List.cons_append, List.filterMap_append, List.filterMap_append,
        List.filterMap_cons_some hfe, List.filterMap_cons_some hfe', renameFirst_skip hn2]
      simp [renameFirst]

/-- C111: after any history of edits of an SRR its stored files are those that the same edits of the lists of files give, with their
bytes and in this order. -/
theorem history_files {srr : Path} {es : List Edit} {fs fs' : FS} {file new : Bytes} {c : List Entry} (hc : Contents file c)
    (hs : fs srr = some file) (he : EditedBy srr es fs fs') (hn : fs' srr = some new) (hl : 20 ≤ new.length) :
    ∃ c', Contents new c' ∧ storedIn c' = es.foldl Stored.edit (storedIn c) := by
  induction he generalizing file c with
  | none fs =>
    rw [hs] at hn
    cases hn
    exact ⟨c, hc, rfl⟩
  | @edit es fs fs1 fs2 file1 tmp e hne ht hs1 hr more ih =>
    rw [hs] at hs1
    cases hs1
    obtain ⟨new1, c1, rfl, h2, h3, _⟩ := edit_result hne ht hs hc hr
    by_cases h20 : 20 ≤ new1.length
    · obtain ⟨c2, hc2, ho2⟩ := ih (h2 h20) (FS.set_eq _ _ _) hn
      exact ⟨c2, hc2, by rw [ho2, edit_storedIn h3, List.foldl_cons]⟩
    · exfalso
      cases more with
      | none => rw [FS.set_eq] at hn; cases hn; omega
      | @edit _ _ _ _ file2 tmp2 e2 hne2 ht2 hs2 hr2 more2 =>
        rw [FS.set_eq] at hs2
        cases hs2
        exact edit_short (by omega) hr2

/-- No other file is changed by edits. -/
theorem history_others {srr : Path} {es : List Edit} {fs fs' : FS} {file new : Bytes} {c : List Entry} (hc : Contents file c)
    (hs : fs srr = some file) (he : EditedBy srr es fs fs') (hn : fs' srr = some new) (hl : 20 ≤ new.length) :
    ∀ p, p ≠ srr → fs' p = fs p := by
  induction he generalizing file c with
  | none fs => intro p _; rfl
  | @edit es fs fs1 fs2 file1 tmp e hne ht hs1 hr more ih =>
    rw [hs] at hs1
    cases hs1
    obtain ⟨new1, c1, rfl, h2, h3, _⟩ := edit_result hne ht hs hc hr
    by_cases h20 : 20 ≤ new1.length
    · intro p hp
      rw [ih (h2 h20) (FS.set_eq _ _ _) hn p hp, FS.set_ne _ _ hp]
    · exfalso
      cases more with
      | none => rw [FS.set_eq] at hn; cases hn; omega
      | @edit _ _ _ _ file2 tmp2 e2 hne2 ht2 hs2 hr2 more2 =>
        rw [FS.set_eq] at hs2
        cases hs2
        exact edit_short (by omega) hr2

theorem storedIn_all (c : List Entry) : (storedIn c).all = c.filterMap storedFile := by
  unfold storedIn Stored.all
  rw [← List.filterMap_append, beforeRar, fromRar, List.takeWhile_append_dropWhile]

/-- When all files are asked for, the selection is all files. -/
theorem selection_all {a : ExtractArgs} {file : Bytes} {c : List Entry} {out : Str → Path} (hc : Contents file c) (ha : a.packedName = [])
    (hm : a.matcher = none) (hn : ∀ f ∈ c.filterMap storedFile, opath f.1 a.extractPaths a.outFolder = .ok (out f.1) ∧
      (osFileNameSrr f.1).isOk = true) :
    selection a c = some ((c.filterMap storedFile).map fun f => (out f.1, f.2)) := by
  obtain ⟨l, hg, _, hl, _⟩ := items_of_contents hc
  have hk : ∀ e ∈ c, ∀ s n, e.kind = .stored s n → e.btype = 0x6A := by
    intro e he s n hek
    rw [← hl] at he
    obtain ⟨x, hx, rfl⟩ := List.mem_map.mp he
    by_cases hb : x.1.btype = 0x6A
    · exact hb
    · exact absurd hek (kind_stored_btype (goodItems_complete hg x hx).1 hb s n)
  clear hc hl hg
  induction c with
  | nil => rfl
  | cons e t ih =>
    have hkt := fun e' he' => hk e' (List.mem_cons_of_mem _ he')
    unfold selection
    split
    · rename_i s name hek
      have hb := hk e (by simp) s name hek
      have hf : storedFile e = some (name, e.data) := by simp [storedFile, hek, hb]
      rw [List.filterMap_cons_some hf] at hn ⊢
      obtain ⟨h1, h2⟩ := hn (name, e.data) (by simp)
      rw [ih (fun f hf => hn f (by simp [hf])) hkt, h1]
      cases ho : osFileNameSrr name with
      | error er => rw [ho] at h2; simp [Except.isOk, Except.toBool] at h2
      | ok q =>
        dsimp only
        rw [if_pos (by simp [isSelected, ha, hm])]
        rfl
    · rename_i hns
      have hf : storedFile e = none := by
        unfold storedFile
        split
        · rename_i s n hek
          exact absurd hek (hns s n)
        · rfl
      have h2 : (e :: t).filterMap storedFile = t.filterMap storedFile := by simp [hf]
      rw [h2] at hn ⊢
      exact ih hn hkt

/-- C111: after any history of edits, extracting all stored files writes for every file that the same edits of the lists give exactly
its bytes, at a path that is new (of several files with one path the first counts), and changes no other file. -/
theorem history_extracted {srr : Path} {es : List Edit} {fs fs' : FS} {file new : Bytes} {c : List Entry} {ask : Path → Bool}
    {a : ExtractArgs} {out : Str → Path} {files : List (Str × Bytes)} (hc : Contents file c)
    (hs : fs srr = some file) (he : EditedBy srr es fs fs') (hn : fs' srr = some new) (hl : 20 ≤ new.length)
    (hfiles : files = (es.foldl Stored.edit (storedIn c)).all) (ha : a.packedName = []) (hm : a.matcher = none)
    (hask : ∀ p, ask p = false)
    (hnames : ∀ f ∈ files, opath f.1 a.extractPaths a.outFolder = .ok (out f.1) ∧ (osFileNameSrr f.1).isOk = true) :
    ∃ fs'' rs, extractFiles srr ask a fs' = (fs'', .ok rs) ∧ rs.map (·.1) = files.map (fun f => out f.1) ∧
      (∀ q, q ∉ files.map (fun f => out f.1) → fs'' q = fs' q) ∧
      ∀ s1 n d s2, files = s1 ++ (n, d) :: s2 → out n ∉ s1.map (fun f => out f.1) → fs' (out n) = none → fs'' (out n) = some d := by
  obtain ⟨c', hc', hst⟩ := history_files hc hs he hn hl
  have hall : files = c'.filterMap storedFile := by rw [hfiles, ← hst, storedIn_all]
  have hsel := selection_all (out := out) hc' ha hm (by rw [← hall]; exact hnames)
  rw [← hall] at hsel
  obtain ⟨fs'', rs, h1, h2, h3, h4⟩ := extract_result (hask srr) hn hc' hsel
  refine ⟨fs'', rs, h1, ?_, ?_, ?_⟩
  · rw [h2]; simp [Function.comp_def]
  · intro q hq
    exact h3 q (by simpa [Function.comp_def] using hq)
  · intro s1 n d s2 hsplit hno hnew
    have := h4 (s1.map fun f => (out f.1, f.2)) (out n) d (s2.map fun f => (out f.1, f.2)) (by rw [hsplit]; simp)
      (by simpa [Function.comp_def] using hno) (hask _)
    rw [if_pos hnew] at this
    exact this.1

end Rescene.Props
