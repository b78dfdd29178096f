import Verif.Lemmas.Edit
import Verif.Props.Reader
/-
C08, C09, C10: editing the stored files of an SRR.  All runs here are without faults of
the file system; failures are the subject of Props/Faults.lean.
-/
namespace Rescene.Props
open Rescene Rescene.Spec

/-- C08: adding files inserts their entries, in order, before the first RAR volume block
(at the end when there is none), and replaces the SRR by the result.  Nothing else of the
SRR changes, and no other file does. -/
theorem add_inserts {srr tmp : Path} {fs : FS} {file : Bytes} {c adds : List Entry}
    {storeFiles : List Str} {news : List NewFile}
    (hne : srr ≠ tmp) (ht : fs tmp = none) (hs : fs srr = some file) (hc : Contents file c)
    (hadds : newEntries news = .ok adds)
    (hdup : ∀ e ∈ c, ∀ name, e.isStored name → ∃ p, osFileNameSrr name = .ok p ∧ p ∉ storeFiles) :
    ∃ new, run (addProg srr tmp file storeFiles news) fs [] = (fs.set srr (some new), .ok ()) ∧
      Contents new (beforeRar c ++ adds ++ fromRar c) ∧
      new = entriesBytes (beforeRar c) ++ entriesBytes adds ++ entriesBytes (fromRar c) ∧
      file = entriesBytes (beforeRar c) ++ entriesBytes (fromRar c) := by
  obtain ⟨l, hg, hf, hl, htr⟩ := items_of_contents hc
  obtain ⟨items, hi, hie⟩ := newItems_entries hadds
  have hcd := goodItems_complete hg
  have hch := addChunks_false (pre := []) hcd hi
  simp only [List.nil_append, List.length_nil] at hch
  rw [hf] at hch
  have hsplit := List.takeWhile_append_dropWhile (p := fun x : Item => decide (x.1.btype ≠ 0x71)) (l := l)
  have hgn : GoodItems (l.takeWhile (fun x => x.1.btype ≠ 0x71) ++ items ++
      l.dropWhile (fun x => x.1.btype ≠ 0x71)) := by
    refine goodItems_insert (by rw [hsplit]; exact hg) (newItems_props hi) ?_
    obtain ⟨x, t, rfl, hx⟩ := hg.head
    simp [hx]
  have hcont := contents_of_items hgn
  have hmap : (l.takeWhile (fun x => x.1.btype ≠ 0x71) ++ items ++
      l.dropWhile (fun x => x.1.btype ≠ 0x71)).map toEntry = beforeRar c ++ adds ++ fromRar c := by
    rw [List.map_append, List.map_append, takeWhile_toEntry, dropWhile_toEntry, hie, hl]
  rw [hmap] at hcont
  refine ⟨_, ?_, hcont, ?_, ?_⟩
  · have hdc : dupeCheck storeFiles ((layout 0 l).map (·.1)) = .ok () := by
      refine dupeCheck_ok hg.data ?_
      intro x hx name hb hk
      exact hdup (toEntry x) (hl ▸ List.mem_map_of_mem hx) name ⟨hb, _, hk⟩
    unfold addProg
    simp only [run, step, List.headD_nil, List.tail_nil, readSrr_layout hc.1 htr, hdc]
    rw [run_writeChunks hch (FS.set_eq _ _ _), FS.set_set, List.nil_append, run_replaceSrr hne ht hs]
  · rw [← entriesBytes_append, ← entriesBytes_append, ← hmap, entriesBytes_map]
  · rw [← entriesBytes_append, beforeRar, fromRar, List.takeWhile_append_dropWhile, contents_bytes hc]

/-- C08/C11: when a file has a stored file's name, nothing is changed. -/
theorem add_duplicate {srr tmp : Path} {fs : FS} {file : Bytes} {c : List Entry}
    {storeFiles : List Str} {news : List NewFile} (hc : Contents file c)
    (hnames : ∀ e ∈ c, ∀ name, e.isStored name → ∃ p, osFileNameSrr name = .ok p)
    (hdup : ∃ e ∈ c, ∃ name p, e.isStored name ∧ osFileNameSrr name = .ok p ∧ p ∈ storeFiles) :
    run (addProg srr tmp file storeFiles news) fs [] = (fs, .error .dupeName) := by
  obtain ⟨l, hg, hf, hl, htr⟩ := items_of_contents hc
  have hdc : dupeCheck storeFiles ((layout 0 l).map (·.1)) = .error .dupeName := by
    refine dupeCheck_found hg.data ?_ ?_
    · intro x hx name hb hk
      exact hnames (toEntry x) (hl ▸ List.mem_map_of_mem hx) name ⟨hb, _, hk⟩
    · obtain ⟨e, he, name, p, ⟨h1, size, h2⟩, h3, h4⟩ := hdup
      rw [← hl, List.mem_map] at he
      obtain ⟨x, hx, rfl⟩ := he
      obtain ⟨name', hk⟩ := dataOk_stored (hg.data x hx) h1
      have : name' = name := by
        have h2' : x.1.kind = .stored size name := h2
        rw [hk] at h2'
        simp only [Kind.stored.injEq] at h2'
        exact h2'.2
      subst this
      exact ⟨x, hx, name', p, h1, hk, h3, h4⟩
  unfold addProg
  simp only [run, step, List.headD_nil, readSrr_layout hc.1 htr, hdc]

/-- C11: a file that cannot be read or a name that cannot be stored: nothing is changed
and no temporary file is left. -/
theorem add_bad_file {srr tmp : Path} {fs : FS} {file : Bytes} {c : List Entry} {e : Err}
    {storeFiles : List Str} {news : List NewFile} (ht : fs tmp = none) (hc : Contents file c)
    (hbad : newEntries news = .error e)
    (hdup : ∀ e ∈ c, ∀ name, e.isStored name → ∃ p, osFileNameSrr name = .ok p ∧ p ∉ storeFiles) :
    run (addProg srr tmp file storeFiles news) fs [] = (fs, .error e) := by
  obtain ⟨l, hg, hf, hl, htr⟩ := items_of_contents hc
  have hch := addChunks_error (pre := []) (goodItems_complete hg) hbad
  simp only [List.nil_append, List.length_nil] at hch
  rw [hf] at hch
  have hdc : dupeCheck storeFiles ((layout 0 l).map (·.1)) = .ok () := by
    refine dupeCheck_ok hg.data ?_
    intro x hx name hb hk
    exact hdup (toEntry x) (hl ▸ List.mem_map_of_mem hx) name ⟨hb, _, hk⟩
  unfold addProg
  simp only [run, step, List.headD_nil, List.tail_nil, readSrr_layout hc.1 htr, hdc]
  obtain ⟨w, hw⟩ := run_writeChunks_error (src := srr) (k := replaceSrr srr tmp (fun e => .done (.error e)))
    (h := fun e => .act (.close tmp) (.act (.unlink tmp) (.done (.error e)) (fun e => .done (.error e)))
      (fun e => .done (.error e))) hch (FS.set_eq fs tmp (some []))
  rw [hw]
  simp only [run, step, List.headD_nil, List.tail_nil, FS.set_eq, Option.isSome_some, if_true, FS.set_set,
    FS.set_same fs tmp none ht]

theorem keepItem_eq (names : List Str) (x : Item) : keepItem names x = !(toEntry x).isOneOf names := by
  unfold keepItem Entry.isOneOf toEntry
  cases x.1.kind <;> simp

theorem filter_toEntry (names : List Str) (l : List Item) :
    (l.filter (keepItem names)).map toEntry = (l.map toEntry).filter (fun e => !e.isOneOf names) := by
  rw [List.filter_map]
  congr 1
  exact List.filter_congr (fun x _ => keepItem_eq names x)

/-- C09: removing stored files drops exactly the entries of stored files with one of the
names; all other entries keep their bytes and order.  The result is again a well-formed
SRR with these entries, unless it is shorter than the 20 bytes the reader asks for. -/
theorem remove_drops {srr tmp : Path} {fs : FS} {file : Bytes} {c : List Entry} {names : List Str}
    (hne : srr ≠ tmp) (ht : fs tmp = none) (hs : fs srr = some file) (hc : Contents file c) :
    ∃ new, run (removeProg srr tmp file names) fs [] = (fs.set srr (some new), .ok ()) ∧
      new = entriesBytes (c.filter (fun e => !e.isOneOf names)) ∧
      (20 ≤ new.length → Contents new (c.filter (fun e => !e.isOneOf names))) := by
  obtain ⟨l, hg, hf, hl, htr⟩ := items_of_contents hc
  have hch := removeChunks_items (pre := []) (names := names) (goodItems_complete hg)
  simp only [List.nil_append, List.length_nil] at hch
  rw [hf] at hch
  refine ⟨itemsBytes (l.filter (keepItem names)), ?_, ?_, ?_⟩
  · unfold removeProg
    have hra : readAll file = .ok ((layout 0 l).map (·.1)) := by simp [readAll, htr]
    simp only [run, step, List.headD_nil, List.tail_nil, hc.1, ne_eq, not_true, if_false, hra]
    rw [run_writeChunks hch (FS.set_eq _ _ _), FS.set_set, List.nil_append, run_replaceSrr hne ht hs]
  · rw [← hl, ← filter_toEntry, entriesBytes_map]
  · intro hlen
    rw [← hl, ← filter_toEntry]
    refine contents_of_items ⟨?_, ?_, ?_, hlen⟩
    · refine readable_filter hg.readable ?_
      intro x _ hx
      unfold keepItem; split <;> simp [hx]
    · intro x hx
      exact hg.data x (List.mem_filter.mp hx).1
    · obtain ⟨x, t, rfl, hx⟩ := hg.head
      refine ⟨x, t.filter (keepItem names), ?_, hx⟩
      rw [List.filter_cons_of_pos]
      unfold keepItem; split <;> simp [hx]

theorem newEntries_oneOf {news : List NewFile} {adds : List Entry} (h : newEntries news = .ok adds) :
    ∀ e ∈ adds, e.isOneOf (news.map (·.1)) = true := by
  induction news generalizing adds with
  | nil => simp [newEntries] at h; subst h; simp
  | cons f t ih =>
    simp only [newEntries, newEntry, bind_eq_ok] at h
    obtain ⟨e, ⟨d', hd, raw, hraw, he⟩, r, hr, h⟩ := h
    simp only [pure_eq_ok, Except.ok.injEq] at h he
    subst h; subst he
    intro e he
    rcases List.mem_cons.mp he with rfl | he
    · simp [Entry.isOneOf]
    · have := ih hr e he
      unfold Entry.isOneOf at this ⊢
      split <;> rename_i hk
      · rw [hk] at this
        simp only [Bool.and_eq_true, List.contains_eq_mem, decide_eq_true_eq, List.map_cons, List.mem_cons] at this ⊢
        exact ⟨this.1, Or.inr this.2⟩
      · split at this
        · rename_i h2; exact absurd h2 (hk _ _)
        · simp at this

/-- C09: removing the files that were just added gives back the original SRR, byte for
byte, if none of their names was in use. -/
theorem remove_undoes_add {srr tmp tmp2 : Path} {fs : FS} {file : Bytes} {c adds : List Entry}
    {storeFiles : List Str} {news : List NewFile}
    (hne : srr ≠ tmp) (ht : fs tmp = none) (hne2 : srr ≠ tmp2) (ht2 : fs tmp2 = none)
    (hs : fs srr = some file) (hc : Contents file c) (hadds : newEntries news = .ok adds)
    (hdup : ∀ e ∈ c, ∀ name, e.isStored name → ∃ p, osFileNameSrr name = .ok p ∧ p ∉ storeFiles)
    (hfresh : ∀ e ∈ c, ∀ f ∈ news, ¬ e.isStored f.1) :
    ∃ fs' new, run (addProg srr tmp file storeFiles news) fs [] = (fs', .ok ()) ∧ fs' srr = some new ∧
      run (removeProg srr tmp2 new (news.map (·.1))) fs' [] = (fs, .ok ()) := by
  obtain ⟨new, h1, h2, _, h4⟩ := add_inserts hne ht hs hc hadds hdup
  refine ⟨_, new, h1, FS.set_eq _ _ _, ?_⟩
  obtain ⟨new', g1, g2, _⟩ := remove_drops (names := news.map (·.1)) hne2
    (by rw [FS.set_ne _ _ (Ne.symm hne2)]; exact ht2) (FS.set_eq fs srr (some new)) h2
  have hold : ∀ e ∈ c, e.isOneOf (news.map (·.1)) = false := by
    intro e he
    cases hb : e.isOneOf (news.map (·.1)) with
    | false => rfl
    | true =>
      exfalso
      unfold Entry.isOneOf at hb
      split at hb
      · rename_i size n hk
        simp only [Bool.and_eq_true, beq_iff_eq, List.contains_eq_mem, decide_eq_true_eq, List.mem_map] at hb
        obtain ⟨hb, f, hf, rfl⟩ := hb
        exact hfresh e he f hf ⟨hb, size, hk⟩
      · simp at hb
  have hall : ∀ s : List Entry, (∀ e ∈ s, e ∈ c) → s.filter (fun e => !e.isOneOf (news.map (·.1))) = s := by
    intro s hsub
    rw [List.filter_eq_self]
    intro e he; rw [hold e (hsub e he)]; rfl
  have hnone : adds.filter (fun e => !e.isOneOf (news.map (·.1))) = [] := by
    rw [List.filter_eq_nil_iff]
    intro e he; rw [newEntries_oneOf hadds e he]; simp
  have : new' = file := by
    rw [g2, List.filter_append, List.filter_append, hnone,
      hall (beforeRar c) (fun e he => List.takeWhile_subset _ he), hall (fromRar c) (fun e he => List.dropWhile_subset _ he),
      List.append_nil, entriesBytes_append]
    exact h4.symm
  rw [g1, FS.set_set, this, FS.set_same fs srr _ hs]

/-- What `findStored` returns for a sequence of items. -/
theorem findStored_items {name : Str} {l1 l2 : List Item} {x : Item} {a : Nat}
    (hd : ∀ y ∈ l1, DataOk (toEntry y)) (hx : x.1.btype = 0x6A ∧ ∃ s, x.1.kind = .stored s name)
    (h1 : ∀ y ∈ l1, ¬ (toEntry y).isStored name) :
    findStored name ((layout a (l1 ++ x :: l2)).map (·.1)) = .ok (at_ x.1 (a + (itemsBytes l1).length)) := by
  induction l1 generalizing a with
  | nil =>
    obtain ⟨hb, s, hk⟩ := hx
    simp [layout, findStored, at_, hb, hk]
  | cons y t ih =>
    have ht := ih (a := a + (itemBytes y).length) (fun z hz => hd z (by simp [hz])) (fun z hz => h1 z (by simp [hz]))
    simp only [List.cons_append, layout, List.map_cons, findStored]
    rw [Nat.add_assoc] at ht
    rw [itemsBytes_cons, List.length_append]
    by_cases hb : y.1.btype = 0x6A
    · obtain ⟨n, hk⟩ := dataOk_stored (hd y (by simp)) hb
      have hn : n ≠ name := fun hc => h1 y (by simp) ⟨hb, _, hc ▸ hk⟩
      rw [if_pos (by exact hb)]
      simp only [at_, hk, hn, if_false]
      exact ht
    · rw [if_neg (by exact hb)]
      exact ht

theorem findStored_none {name : Str} {l : List Item} {a : Nat}
    (hd : ∀ y ∈ l, DataOk (toEntry y)) (h1 : ∀ y ∈ l, ¬ (toEntry y).isStored name) :
    findStored name ((layout a l).map (·.1)) = .error .fileNotFound := by
  induction l generalizing a with
  | nil => rfl
  | cons y t ih =>
    have ht := ih (a := a + (itemBytes y).length) (fun z hz => hd z (by simp [hz])) (fun z hz => h1 z (by simp [hz]))
    simp only [layout, List.map_cons, findStored]
    by_cases hb : y.1.btype = 0x6A
    · obtain ⟨n, hk⟩ := dataOk_stored (hd y (by simp)) hb
      have hn : n ≠ name := fun hc => h1 y (by simp) ⟨hb, _, hc ▸ hk⟩
      rw [if_pos (by exact hb)]
      simp only [at_, hk, hn, if_false]
      exact ht
    · rw [if_neg (by exact hb)]
      exact ht

theorem mkStored_good {name : Str} {size : Int} {raw : Bytes} (h : mkStored name size = .ok raw) :
    isGoodSrr name = true := by
  obtain ⟨_, _, _, h, _⟩ := mkStored_ok_iff.mp h
  exact h

theorem stored_length_ge {name : Str} {size : Int} {raw : Bytes} (h : mkStored name size = .ok raw) :
    13 ≤ raw.length := by
  obtain ⟨n, _, _, _, _, _, _, rfl⟩ := mkStored_ok_iff.mp h
  simp; omega

/-- C10: renaming replaces the name of the first stored file with that name; its data,
all other entries and their order are unchanged. -/
theorem rename_changes_name {srr tmp : Path} {fs : FS} {file raw : Bytes} {c1 c2 : List Entry} {e : Entry}
    {name newName : Str} (hne : srr ≠ tmp) (ht : fs tmp = none) (hs : fs srr = some file)
    (hc : Contents file (c1 ++ e :: c2)) (he : e.isStored name) (hfirst : ∀ e' ∈ c1, ¬ e'.isStored name)
    (hnew : mkStored newName e.data.length = .ok raw) :
    ∃ new, run (renameProg srr tmp file name newName) fs [] = (fs.set srr (some new), .ok ()) ∧
      Contents new (c1 ++ ⟨0x6A, .stored e.data.length newName, raw, e.data⟩ :: c2) := by
  obtain ⟨l, hg, hf, hl, htr⟩ := items_of_contents hc
  rw [List.map_eq_append_iff] at hl
  obtain ⟨l1, l2', rfl, hl1, hl2'⟩ := hl
  rw [List.map_eq_cons_iff] at hl2'
  obtain ⟨x, l2, rfl, hx, hl2⟩ := hl2'
  subst hx
  obtain ⟨hxc, hxd⟩ := goodItems_complete hg x (by simp)
  have hb : x.1.btype = 0x6A := he.1
  obtain ⟨name', hk⟩ := dataOk_stored hxd hb
  have hname : name' = name := by
    obtain ⟨s, hs⟩ := he.2
    have h2' : x.1.kind = .stored s name := hs
    rw [hk] at h2'
    simp only [Kind.stored.injEq] at h2'
    exact h2'.2
  subst hname
  have hfind := findStored_items (a := 0) (l1 := l1) (l2 := l2) (x := x) (name := name')
    (fun y hy => hg.data y (by simp [hy])) ⟨hb, _, hk⟩
    (fun y hy => hfirst (toEntry y) (hl1 ▸ List.mem_map_of_mem hy))
  have hraw6 := complete_6a_len hxc hb
  obtain ⟨nc, ns⟩ := complete_stored hnew
  simp only [Int.toNat_natCast] at nc ns
  have hx2 : (toEntry x).data = x.2 := rfl
  rw [hx2] at hnew nc ns
  -- the new sequence of items
  let x' : Item := (storedBlock raw newName x.2.length, x.2)
  have hx'ok : (∀ rr, Readable rr [x']) ∧ (∀ y ∈ [x'], DataOk (toEntry y) ∧ y.1.btype = 0x6A) := by
    refine ⟨fun rr => ⟨nc, (ns rr).symm, ?_, trivial⟩, ?_⟩
    · intro _ hr; rw [isRecovery_of_ne (by simp [x', storedBlock]) (by simp [x', storedBlock])] at hr; simp at hr
    · intro y hy
      simp only [List.mem_singleton] at hy
      subst hy
      refine ⟨?_, rfl⟩
      unfold DataOk
      rw [if_pos (by rfl)]
      exact ⟨newName, rfl⟩
  have hl1ne : l1 ≠ [] := by
    rintro rfl
    obtain ⟨y, t, hy, hy2⟩ := hg.head
    simp only [List.nil_append, List.cons.injEq] at hy
    rw [← hy.1] at hy2
    omega
  -- without `x`, and with `x'` in its place
  have hr := hg.readable
  rw [readable_append] at hr
  have hrx := hr.2.2.2.2
  have hnx : nextRR (l1.foldl (fun r x => nextRR r x.1) none) x.1 = l1.foldl (fun r x => nextRR r x.1) none := by
    unfold nextRR; rw [if_neg]; rintro ⟨_, hc⟩; omega
  rw [hnx] at hrx
  have hnx' : nextRR (l1.foldl (fun r x => nextRR r x.1) none) x'.1 = l1.foldl (fun r x => nextRR r x.1) none := by
    unfold nextRR; rw [if_neg]; rintro ⟨_, hc⟩; simp [x', storedBlock] at hc
  have hgood : GoodItems (l1 ++ x' :: l2) := by
    refine ⟨?_, ?_, ?_, ?_⟩
    · rw [readable_append]
      obtain ⟨q1, q2, q3, _⟩ := hx'ok.1 (l1.foldl (fun r x => nextRR r x.1) none)
      exact ⟨hr.1, q1, q2, q3, by rw [hnx']; exact hrx⟩
    · intro y hy
      simp only [List.mem_append, List.mem_cons] at hy
      rcases hy with hy | rfl | hy
      · exact hg.data y (by simp [hy])
      · exact (hx'ok.2 _ (by simp)).1
      · exact hg.data y (by simp [hy])
    · obtain ⟨y, l1', rfl⟩ := List.exists_cons_of_ne_nil hl1ne
      obtain ⟨z, t, hz, hz2⟩ := hg.head
      rw [List.cons_append, List.cons.injEq] at hz
      exact ⟨y, l1' ++ x' :: l2, rfl, by rw [hz.1]; exact hz2⟩
    · obtain ⟨y, l1', rfl⟩ := List.exists_cons_of_ne_nil hl1ne
      have h7 := complete_len (readable_mem hg.readable y (by simp))
      have hlen := stored_length_ge hnew
      simp only [itemsBytes_append, itemsBytes_cons, List.length_append, itemBytes, x', storedBlock]
      omega
  have hcont := contents_of_items hgood
  have hmap : (l1 ++ x' :: l2).map toEntry =
      c1 ++ ⟨0x6A, .stored (toEntry x).data.length newName, raw, (toEntry x).data⟩ :: c2 := by
    rw [List.map_append, List.map_cons, hl1, hl2]; rfl
  rw [hmap] at hcont
  refine ⟨_, ?_, hcont⟩
  have hfile : file = itemsBytes l1 ++ (x.1.raw ++ (x.2 ++ itemsBytes l2)) := by
    rw [← hf]; simp [itemBytes]
  have hch : chunksVal (renameChunks file (at_ x.1 (itemsBytes l1).length) newName) =
      .ok (itemsBytes (l1 ++ x' :: l2)) := by
    unfold renameChunks
    simp only [at_, hk, hnew]
    have e1 : file.take (itemsBytes l1).length = itemsBytes l1 := by rw [hfile, List.take_left]
    have e2 : file.drop ((itemsBytes l1).length + x.1.hsize) = x.2 ++ itemsBytes l2 := by
      rw [hfile, ← hraw6, ← List.append_assoc, ← List.length_append, List.drop_left]
    rw [e1, e2]
    simp [chunksVal, itemBytes, x', storedBlock]
  rw [Nat.zero_add] at hfind
  unfold renameProg
  simp only [run, step, List.headD_nil, List.tail_nil, readSrr_layout hc.1 htr, hfind, mkStored_good hnew]
  simp only [at_, hk, hnew]
  have hch' := hch
  simp only [at_, hk] at hch'
  simp only [Bool.true_eq_false, if_false, run, step, List.headD_nil, List.tail_nil]
  rw [run_writeChunks hch' (FS.set_eq _ _ _), FS.set_set, List.nil_append, run_replaceSrr hne ht hs]

/-- C10: without a stored file of that name an error is raised and nothing changes. -/
theorem rename_not_found {srr tmp : Path} {fs : FS} {file : Bytes} {c : List Entry} {name newName : Str}
    (hc : Contents file c) (hno : ∀ e ∈ c, ¬ e.isStored name) :
    run (renameProg srr tmp file name newName) fs [] = (fs, .error .fileNotFound) := by
  obtain ⟨l, hg, hf, hl, htr⟩ := items_of_contents hc
  have hfind := findStored_none (a := 0) (name := name) hg.data
    (fun y hy => hno (toEntry y) (hl ▸ List.mem_map_of_mem hy))
  unfold renameProg
  simp only [run, step, List.headD_nil, readSrr_layout hc.1 htr, hfind]

/-- The entries of `exSrr`. -/
def exEntries : List Entry :=
  [⟨0x69, .srrHeader [], [0x69, 0x69, 0x69, 0, 0, 7, 0], []⟩,
   ⟨0x6A, .stored 3 (str "a"), [0x6A, 0x6A, 0x6A, 0, 0x80, 14, 0, 3, 0, 0, 0, 1, 0, 0x61], [1, 2, 3]⟩,
   ⟨0x71, .rarFile (str "b"), [0x71, 0x71, 0x71, 0, 0, 10, 0, 1, 0, 0x62], []⟩]

theorem exSrr_contents : Contents exSrr exEntries := by
  refine ⟨by decide, [(⟨0, 0x6969, 0x69, 0, 7, 0, [0x69, 0x69, 0x69, 0, 0, 7, 0], .srrHeader []⟩, 7),
    (⟨7, 0x6A6A, 0x6A, 0x8000, 14, 3, [0x6A, 0x6A, 0x6A, 0, 0x80, 14, 0, 3, 0, 0, 0, 1, 0, 0x61],
      .stored 3 (str "a")⟩, 24),
    (⟨24, 0x7171, 0x71, 0, 10, 0, [0x71, 0x71, 0x71, 0, 0, 10, 0, 1, 0, 0x62], .rarFile (str "b")⟩, 34)],
    by decide, by decide, by decide, ?_⟩
  intro e he
  simp only [exEntries, List.mem_cons, List.not_mem_nil, or_false] at he
  rcases he with rfl | rfl | rfl
  · rfl
  · exact ⟨str "a", rfl⟩
  · rfl

/-- The hypotheses of `add_inserts` are met. -/
example : ∃ new, run (addProg (str "a.srr") (str "t") exSrr [str "n"] [(str "n", .ok [9])])
      (FS.set (fun _ => none) (str "a.srr") (some exSrr)) [] =
        (FS.set (FS.set (fun _ => none) (str "a.srr") (some exSrr)) (str "a.srr") (some new), .ok ()) := by
  obtain ⟨new, h, _⟩ := add_inserts (srr := str "a.srr") (tmp := str "t")
    (fs := FS.set (fun _ => none) (str "a.srr") (some exSrr)) (storeFiles := [str "n"])
    (news := [(str "n", .ok [9])])
    (adds := [⟨0x6A, .stored 1 (str "n"), [0x6A, 0x6A, 0x6A, 0, 0x80, 14, 0, 1, 0, 0, 0, 1, 0, 0x6E], [9]⟩])
    (by decide) (by decide) (by decide) exSrr_contents (by decide) (by
      intro e he name hn
      simp only [exEntries, List.mem_cons, List.not_mem_nil, or_false] at he
      obtain ⟨h1, s, h2⟩ := hn
      rcases he with rfl | rfl | rfl
      · simp at h1
      · simp only [Kind.stored.injEq] at h2
        rw [← h2.2]
        exact ⟨str "a", by decide, by decide⟩
      · simp at h1)
  exact ⟨new, h⟩

/-- Renaming in `exSrr`. -/
example : ∃ new, run (renameProg (str "a.srr") (str "t") exSrr (str "a") (str "x/y"))
      (FS.set (fun _ => none) (str "a.srr") (some exSrr)) [] =
        (FS.set (FS.set (fun _ => none) (str "a.srr") (some exSrr)) (str "a.srr") (some new), .ok ()) := by
  obtain ⟨new, h, _⟩ := rename_changes_name (srr := str "a.srr") (tmp := str "t")
    (fs := FS.set (fun _ => none) (str "a.srr") (some exSrr)) (newName := str "x/y") (name := str "a")
    (raw := [0x6A, 0x6A, 0x6A, 0, 0x80, 16, 0, 3, 0, 0, 0, 3, 0, 0x78, 0x2F, 0x79])
    (c1 := [⟨0x69, .srrHeader [], [0x69, 0x69, 0x69, 0, 0, 7, 0], []⟩])
    (e := ⟨0x6A, .stored 3 (str "a"), [0x6A, 0x6A, 0x6A, 0, 0x80, 14, 0, 3, 0, 0, 0, 1, 0, 0x61], [1, 2, 3]⟩)
    (c2 := [⟨0x71, .rarFile (str "b"), [0x71, 0x71, 0x71, 0, 0, 10, 0, 1, 0, 0x62], []⟩])
    (by decide) (by decide) (by decide) exSrr_contents ⟨rfl, 3, rfl⟩
    (by intro e he; simp at he; subst he; intro h; simpa using h.1) (by decide)
  exact ⟨new, h⟩

/-- The limit of `remove_drops` is real: without its stored file this SRR has 17 bytes, and
an SRR without volumes only 7; the reader then refuses the file. -/
example : entriesBytes (exEntries.filter (fun e => !e.isOneOf [str "a"])) =
    [0x69, 0x69, 0x69, 0, 0, 7, 0, 0x71, 0x71, 0x71, 0, 0, 10, 0, 1, 0, 0x62] := by decide

theorem removed_below_20_unreadable {file : Bytes} (h : file.length < 20) :
    readSrr file = .error .valueError := by
  simp [readSrr, openReader, h]

end Rescene.Props
