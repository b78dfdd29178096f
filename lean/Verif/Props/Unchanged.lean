import Verif.Spec.Unchanged
import Verif.Props.Edit
import Verif.Props.Merge
import Verif.Props.Overwrite
/-
C110: what is rebuilt from an SRR does not depend on its stored files, and is the same from merged SRR files.
-/
namespace Rescene.Props
open Rescene Rescene.Spec

/-- A block with what reconstruction uses of the entry. -/
def entryBlock (e : Entry) : Block :=
  ⟨0, 0, e.btype, (match unpackAt 2 e.raw 3 with | .ok x => x | .error _ => 0), (match unpackAt 2 e.raw 5 with | .ok x => x | .error _ => 0),
    0, e.raw, e.kind⟩

theorem recBlock_congr {a a' : RecArgs} {s : RecState} {b b' : Block} (ha : { a with srr := a'.srr } = a') (hb : b.btype ≠ 0x6A)
    (h1 : b.btype = b'.btype) (h2 : b.flags = b'.flags) (h3 : b.hsize = b'.hsize) (h4 : b.raw = b'.raw) (h5 : b.kind = b'.kind) :
    recBlock a s b = recBlock a' s b' := by
  obtain ⟨pos, crc, bt, fl, hs, ad, raw, k⟩ := b
  obtain ⟨pos', crc', bt', fl', hs', ad', raw', k'⟩ := b'
  dsimp only at hb h1 h2 h3 h4 h5
  subst h1 h2 h3 h4 h5
  rw [← ha]
  unfold recBlock
  dsimp only
  rw [if_neg hb, if_neg hb]
  rfl

/-- The loop over blocks is the loop over what is left without headers and stored files. -/
theorem recLoop_items {a : RecArgs} (hx : a.extractFiles = false) (l : List Item) (hc : ∀ x ∈ l, Complete x.1) : ∀ (s : RecState) (n : Nat),
    recLoop a s ((layout n l).map (·.1)) = recLoop a s ((otherPart (l.map toEntry)).map entryBlock) := by
  induction l with
  | nil => intro s n; rfl
  | cons x t ih =>
    intro s n
    have ih' := ih (fun y hy => hc y (by simp [hy]))
    have hxc := hc x (by simp)
    simp only [layout, List.map_cons, recLoop]
    by_cases h6a : x.1.btype = 0x6A
    · have he : recBlock a s (at_ x.1 n) = .ok (s, true) := by
        unfold recBlock at_
        dsimp only
        rw [if_neg (by omega), if_pos h6a]
        unfold recStored
        rw [if_neg (by simp [hx])]
        rfl
      rw [he, ok_bind]
      dsimp only
      rw [if_pos rfl, ih']
      simp [otherPart, toEntry, h6a]
    · by_cases h69 : x.1.btype = 0x69
      · obtain ⟨nm, hn⟩ := complete_69 hxc h69
        have he : recBlock a s (at_ x.1 n) = .ok (s, true) := by
          unfold recBlock at_
          dsimp only
          rw [if_pos h69, hn]
        rw [he, ok_bind]
        dsimp only
        rw [if_pos rfl, ih']
        simp [otherPart, toEntry, h69]
      · obtain ⟨f1, f2, f3⟩ := complete_fields hxc
        have he : recBlock a s (at_ x.1 n) = recBlock a s (entryBlock (toEntry x)) := by
          refine recBlock_congr rfl h6a rfl ?_ ?_ rfl rfl
          · show x.1.flags = (match unpackAt 2 x.1.raw 3 with | .ok x => x | .error _ => 0)
            rw [f2]
          · show x.1.hsize = (match unpackAt 2 x.1.raw 5 with | .ok x => x | .error _ => 0)
            rw [f3]
        have hp : otherPart (toEntry x :: t.map toEntry) = toEntry x :: otherPart (t.map toEntry) := by
          simp [otherPart, toEntry, h6a, h69]
        rw [hp, List.map_cons, he]
        simp only [recLoop]
        congr 1
        funext r
        rw [ih']

/-- What `reconstruct` gives of the last state. -/
def outcome (r : Res (RecState × Bool)) : Res (FS × List CrcReport × Bool) := do
  let (s, go) ← r
  return (s.fs, s.reports, go)

theorem reconstruct_entries {a : RecArgs} {fs : FS} {file : Bytes} {c : List Entry} (hx : a.extractFiles = false)
    (hs : fs a.srr = some file) (hc : Contents file c) :
    reconstruct a fs = outcome (recLoop a { fs := fs } ((otherPart c).map entryBlock)) := by
  obtain ⟨l, hg, hf, hl, htr⟩ := items_of_contents hc
  unfold reconstruct
  rw [hs]
  have hra : readAll file = .ok ((layout 0 l).map (·.1)) := by simp [readAll, htr]
  dsimp only
  rw [hra, ok_bind, recLoop_items hx l (fun x h => (goodItems_complete hg x h).1), hl]
  rfl

theorem otherPart_ne {c : List Entry} {e : Entry} (h : e ∈ otherPart c) : e.btype ≠ 0x6A := by
  simp only [otherPart, List.mem_filter, Bool.and_eq_true, bne_iff_ne] at h
  exact h.2.1

theorem recLoop_srr {a : RecArgs} {p : Path} (l : List Block) (h : ∀ b ∈ l, b.btype ≠ 0x6A) : ∀ s : RecState,
    recLoop { a with srr := p } s l = recLoop a s l := by
  induction l with
  | nil => intro s; rfl
  | cons b t ih =>
    intro s
    simp only [recLoop]
    rw [recBlock_congr (a := { a with srr := p }) (a' := a) (b' := b) rfl (h b (by simp)) rfl rfl rfl rfl rfl]
    congr 1
    funext r
    rw [ih (fun x hx => h x (by simp [hx]))]

/-- C110: two SRR files with the same blocks, apart from stored files and headers, rebuild the same volumes with the same
reports, or fail in the same way. -/
theorem rebuilt_same {a : RecArgs} {fs : FS} {p q : Path} {f1 f2 : Bytes} {c1 c2 : List Entry} (hx : a.extractFiles = false)
    (h1 : fs p = some f1) (h2 : fs q = some f2) (hc1 : Contents f1 c1) (hc2 : Contents f2 c2) (h : otherPart c1 = otherPart c2) :
    reconstruct { a with srr := p } fs = reconstruct { a with srr := q } fs := by
  rw [reconstruct_entries (a := { a with srr := p }) hx h1 hc1, reconstruct_entries (a := { a with srr := q }) hx h2 hc2, h]
  have hn : ∀ b ∈ (otherPart c2).map entryBlock, b.btype ≠ 0x6A := by
    intro b hb
    obtain ⟨e, he, rfl⟩ := List.mem_map.mp hb
    exact otherPart_ne he
  rw [recLoop_srr (p := p) _ hn, recLoop_srr (p := q) _ hn]

/-! ### Edits -/

theorem dupeCheck_inv {storeFiles : List Str} (bs : List Block) (h : dupeCheck storeFiles bs = .ok ()) : ∀ b ∈ bs, ∀ size name,
    b.btype = 0x6A → b.kind = .stored size name → ∃ p, osFileNameSrr name = .ok p ∧ p ∉ storeFiles := by
  induction bs with
  | nil => simp
  | cons b t ih =>
    unfold dupeCheck at h
    intro b' hb' size name h1 h2
    rcases List.mem_cons.mp hb' with rfl | hb'
    · rw [if_pos h1, h2] at h
      dsimp only at h
      rw [bind_eq_ok] at h
      obtain ⟨p, hp, h⟩ := h
      refine ⟨p, hp, fun hm => ?_⟩
      rw [if_pos hm] at h
      simp at h
    · refine ih ?_ b' hb' size name h1 h2
      split at h
      · split at h
        · rw [bind_eq_ok] at h
          obtain ⟨p, hp, h⟩ := h
          split at h
          · simp at h
          · exact h
        · simp at h
      · exact h

theorem otherPart_append (c1 c2 : List Entry) : otherPart (c1 ++ c2) = otherPart c1 ++ otherPart c2 := by simp [otherPart]

theorem newEntries_other {news : List NewFile} : ∀ {adds : List Entry}, newEntries news = .ok adds → otherPart adds = [] := by
  induction news with
  | nil => intro adds h; simp only [newEntries, Except.ok.injEq] at h; subst h; rfl
  | cons f t ih =>
    intro adds h
    simp only [newEntries, bind_eq_ok, pure_eq_ok, Except.ok.injEq] at h
    obtain ⟨e, he, r, hr, rfl⟩ := h
    simp only [newEntry, bind_eq_ok, pure_eq_ok, Except.ok.injEq] at he
    obtain ⟨d, _, raw, _, rfl⟩ := he
    have := ih hr
    unfold otherPart at this ⊢
    simpa using this

/-- The entries after an edit that succeeds. -/
def EntriesAfter (c c' : List Entry) : Edit → Prop
  | .add _ news => ∃ adds, newEntries news = .ok adds ∧ c' = beforeRar c ++ adds ++ fromRar c
  | .remove names => c' = c.filter (fun e => !e.isOneOf names)
  | .rename name newName => ∃ c1 e c2 raw, c = c1 ++ e :: c2 ∧ e.isStored name ∧ (∀ e' ∈ c1, ¬ e'.isStored name) ∧
      mkStored newName e.data.length = .ok raw ∧ c' = c1 ++ ⟨0x6A, .stored e.data.length newName, raw, e.data⟩ :: c2

/-- The result of an edit that succeeds. -/
theorem edit_result {srr tmp : Path} {fs fs' : FS} {file : Bytes} {c : List Entry} {e : Edit} (hne : srr ≠ tmp) (ht : fs tmp = none)
    (hs : fs srr = some file) (hc : Contents file c) (h : run (e.prog srr tmp file) fs [] = (fs', .ok ())) :
    ∃ new c', fs' = fs.set srr (some new) ∧ (20 ≤ new.length → Contents new c') ∧ EntriesAfter c c' e ∧ new = entriesBytes c' := by
  cases e with
  | add storeFiles news =>
    replace h : run (addProg srr tmp file storeFiles news) fs [] = (fs', .ok ()) := h
    obtain ⟨l, hg, hf, hl, htr⟩ := items_of_contents hc
    have hd : dupeCheck storeFiles ((layout 0 l).map (·.1)) = .ok () := by
      unfold addProg at h
      simp only [run, step, List.headD_nil, List.tail_nil, readSrr_layout hc.1 htr] at h
      cases hd : dupeCheck storeFiles ((layout 0 l).map (·.1)) with
      | ok u => rfl
      | error e =>
        rw [hd] at h
        simp [run] at h
    have hdup : ∀ e ∈ c, ∀ name, e.isStored name → ∃ p, osFileNameSrr name = .ok p ∧ p ∉ storeFiles := by
      rintro e he name ⟨h1, size, h2⟩
      rw [← hl, List.mem_map] at he
      obtain ⟨x, hx, rfl⟩ := he
      obtain ⟨y, hy, n, hyn⟩ : ∃ y ∈ (layout 0 l).map (·.1), ∃ n, y = at_ x.1 n := by
        clear hg hf hl htr hd h hc
        have : ∀ k, ∃ y ∈ (layout k l).map (·.1), ∃ n, y = at_ x.1 n := by
          induction l with
          | nil => simp at hx
          | cons z t ih =>
            intro k
            rcases List.mem_cons.mp hx with rfl | hx
            · exact ⟨_, by simp [layout], k, rfl⟩
            · obtain ⟨y, hy, hn⟩ := ih hx (k + (itemBytes z).length)
              exact ⟨y, by simp only [layout, List.map_cons]; exact List.mem_cons_of_mem _ hy, hn⟩
        exact this 0
      subst hyn
      exact dupeCheck_inv _ hd _ hy size name h1 h2
    cases hn : newEntries news with
    | error er =>
      rw [add_bad_file ht hc hn hdup] at h
      simp at h
    | ok adds =>
      obtain ⟨new, h1, h2, _, _⟩ := add_inserts hne ht hs hc hn hdup
      rw [h1] at h
      exact ⟨new, _, (Prod.mk.inj h).1.symm, fun _ => h2, ⟨adds, hn, rfl⟩, (contents_bytes h2).symm⟩
  | remove names =>
    replace h : run (removeProg srr tmp file names) fs [] = (fs', .ok ()) := h
    obtain ⟨new, h1, h2, h3⟩ := remove_drops (names := names) hne ht hs hc
    rw [h1] at h
    exact ⟨new, _, (Prod.mk.inj h).1.symm, h3, rfl, h2⟩
  | rename name newName =>
    replace h : run (renameProg srr tmp file name newName) fs [] = (fs', .ok ()) := h
    by_cases hno : ∀ e ∈ c, ¬ e.isStored name
    · rw [rename_not_found hc hno] at h
      simp at h
    · obtain ⟨c1, e, c2, rfl, he, hfirst⟩ : ∃ c1 e c2, c = c1 ++ e :: c2 ∧ e.isStored name ∧ ∀ e' ∈ c1, ¬ e'.isStored name := by
        clear hc h
        induction c with
        | nil => simp at hno
        | cons x t ih =>
          by_cases hx : x.isStored name
          · exact ⟨[], x, t, rfl, hx, by simp⟩
          · have : ¬ ∀ e ∈ t, ¬ e.isStored name := by
              intro ha
              exact hno (fun e he => by
                rcases List.mem_cons.mp he with rfl | he
                · exact hx
                · exact ha e he)
            obtain ⟨c1, e, c2, rfl, h1, h2⟩ := ih this
            refine ⟨x :: c1, e, c2, rfl, h1, fun e' he' => ?_⟩
            rcases List.mem_cons.mp he' with rfl | he'
            · exact hx
            · exact h2 e' he'
      cases hm : mkStored newName e.data.length with
      | ok raw =>
        obtain ⟨new, h1, h2⟩ := rename_changes_name hne ht hs hc he hfirst hm
        rw [h1] at h
        exact ⟨new, _, (Prod.mk.inj h).1.symm, fun _ => h2, ⟨c1, e, c2, raw, rfl, he, hfirst, hm, rfl⟩, (contents_bytes h2).symm⟩
      | error er =>
        exfalso
        obtain ⟨l, hg, hf, hl, htr⟩ := items_of_contents hc
        rw [List.map_eq_append_iff] at hl
        obtain ⟨l1, l2', rfl, hl1, hl2'⟩ := hl
        rw [List.map_eq_cons_iff] at hl2'
        obtain ⟨x, l2, rfl, hx, hl2⟩ := hl2'
        subst hx
        obtain ⟨hxc, hxd⟩ := goodItems_complete hg x (by simp)
        have hb : x.1.btype = 0x6A := he.1
        obtain ⟨name', hk⟩ := dataOk_stored hxd hb
        have hname : name' = name := by
          obtain ⟨s, hs⟩ := he.2
          have h2' : x.1.kind = .stored s name := hs
          rw [hk] at h2'
          simp only [Kind.stored.injEq] at h2'
          exact h2'.2
        subst hname
        have hfind := findStored_items (a := 0) (l1 := l1) (l2 := l2) (x := x) (name := name')
          (fun y hy => hg.data y (by simp [hy])) ⟨hb, _, hk⟩
          (fun y hy => hfirst (toEntry y) (hl1 ▸ List.mem_map_of_mem hy))
        unfold renameProg at h
        simp only [run, step, List.headD_nil, List.tail_nil, readSrr_layout hc.1 htr, hfind] at h
        have hm' : mkStored newName (x.2.length : Int) = .error er := hm
        split at h
        · simp [run] at h
        · simp only [at_, hk, hm', run] at h
          simp at h

/-- An edit that succeeds keeps all blocks but the stored files. -/
theorem edit_other {c c' : List Entry} {e : Edit} (h : EntriesAfter c c' e) : otherPart c' = otherPart c := by
  cases e with
  | add storeFiles news =>
    obtain ⟨adds, hn, rfl⟩ := h
    rw [otherPart_append, otherPart_append, newEntries_other hn, List.append_nil, ← otherPart_append, beforeRar, fromRar,
      List.takeWhile_append_dropWhile]
  | remove names =>
    have h' : c' = c.filter (fun e => !e.isOneOf names) := h
    subst h'
    unfold otherPart
    rw [List.filter_filter]
    refine List.filter_congr (fun e _ => ?_)
    unfold Entry.isOneOf
    by_cases hb : e.btype = 0x6A
    · simp [hb]
    · cases e.kind <;> simp [hb]
  | rename name newName =>
    obtain ⟨c1, e, c2, raw, rfl, he, _, _, rfl⟩ := h
    simp [otherPart, he.1]

/-- No edit of a file below 20 bytes succeeds. -/
theorem edit_short {srr tmp : Path} {fs fs' : FS} {file : Bytes} {e : Edit} (hl : file.length < 20)
    (h : run (e.prog srr tmp file) fs [] = (fs', .ok ())) : False := by
  have ho : openReader file = .error .valueError := by unfold openReader; rw [if_pos (by omega)]
  have hr1 : readSrr file = .error .valueError := by simp [readSrr, ho]
  cases e with
  | add storeFiles news =>
    replace h : run (addProg srr tmp file storeFiles news) _ [] = _ := h
    unfold addProg at h
    simp only [run, step, List.headD_nil, hr1] at h
    cases h
  | remove names =>
    replace h : run (removeProg srr tmp file names) _ [] = _ := h
    unfold removeProg at h
    simp only [run, step, List.headD_nil, ho] at h
    cases h
  | rename name newName =>
    replace h : run (renameProg srr tmp file name newName) _ [] = _ := h
    unfold renameProg at h
    simp only [run, step, List.headD_nil, hr1] at h
    cases h

/-- C110: any number of edits of the stored files, in any order, changes nothing about what is rebuilt: from a copy of the SRR before
and from the SRR after the edits `reconstruct` gives the same files and reports, or fails in the same way.  An SRR that has become
shorter than 20 bytes is refused (C09). -/
theorem edits_rebuild_same {a : RecArgs} {srr p q : Path} {fs fs' g : FS} {file new : Bytes} {c : List Entry} (hc : Contents file c)
    (hs : fs srr = some file) (he : Edited srr fs fs') (hn : fs' srr = some new) (hl : 20 ≤ new.length) (hx : a.extractFiles = false)
    (hp : g p = some file) (hq : g q = some new) :
    reconstruct { a with srr := p } g = reconstruct { a with srr := q } g := by
  have key : ∃ c', Contents new c' ∧ otherPart c' = otherPart c := by
    clear hp
    induction he generalizing file c with
    | none fs =>
      rw [hs] at hn
      cases hn
      exact ⟨c, hc, rfl⟩
    | @edit fs fs1 fs2 file1 tmp e hne ht hs1 hr more ih =>
      rw [hs] at hs1
      cases hs1
      obtain ⟨new1, c1, rfl, h2, h3, _⟩ := edit_result hne ht hs hc hr
      by_cases h20 : 20 ≤ new1.length
      · obtain ⟨c2, hc2, ho2⟩ := ih (h2 h20) (FS.set_eq _ _ _) hn
        exact ⟨c2, hc2, ho2.trans (edit_other h3)⟩
      · exfalso
        cases more with
        | none => rw [FS.set_eq] at hn; cases hn; omega
        | @edit _ _ _ file2 tmp2 e2 hne2 ht2 hs2 hr2 more2 =>
          rw [FS.set_eq] at hs2
          cases hs2
          exact edit_short (by omega) hr2
  obtain ⟨c', hc', ho⟩ := key
  exact rebuilt_same hx hp hq hc hc' ho.symm

/-! ### Merged SRR files -/

/-- The same state with more reports, and other values of what only counts when single volumes are asked for. -/
def lift (pre : List CrcReport) (so : Nat) (ps : Bool) (s : RecState) : RecState :=
  { s with skipOffset := so, partialSet := ps, reports := pre ++ s.reports }

/-- The same state with another open source. -/
def graft (s0 s : RecState) : RecState := { s with srcName := s0.srcName, src := s0.src, running := s0.running }

/-- Changes of the state that writing does not look at. -/
structure Blind (φ : RecState → RecState) : Prop where
  out : ∀ s, (φ s).out = s.out
  fs : ∀ s, (φ s).fs = s.fs
  rebuild : ∀ s, (φ s).rebuild = s.rebuild
  skip : ∀ s, (φ s).skipVolume = s.skipVolume
  rarName : ∀ s, (φ s).rarName = s.rarName
  setFs : ∀ s g, φ { s with fs := g } = { φ s with fs := g }

theorem blind_lift (pre : List CrcReport) (so : Nat) (ps : Bool) : Blind (lift pre so ps) :=
  ⟨fun _ => rfl, fun _ => rfl, fun _ => rfl, fun _ => rfl, fun _ => rfl, fun _ _ => rfl⟩

theorem blind_graft (s0 : RecState) : Blind (graft s0) :=
  ⟨fun _ => rfl, fun _ => rfl, fun _ => rfl, fun _ => rfl, fun _ => rfl, fun _ _ => rfl⟩

theorem blind_write {φ : RecState → RecState} (h : Blind φ) {s : RecState} {d : Bytes} : (φ s).write d = (s.write d).map φ := by
  unfold RecState.write
  cases ho : s.out with
  | none =>
    have h2 : (φ s).out = none := by rw [h.out, ho]
    rw [h2]
    rfl
  | some p =>
    have h2 : (φ s).out = some p := by rw [h.out, ho]
    have h3 := h.setFs s (appendTo s.fs p d)
    dsimp only at h3
    rw [h2, ho] at h3
    rw [h2, h.fs]
    exact congrArg Except.ok h3.symm

theorem write_kept {s s' : RecState} {d : Bytes} (h : s.write d = .ok s') : ∃ fs, s' = { s with fs := fs } := by
  unfold RecState.write at h
  split at h
  · simp at h
  · simp only [Except.ok.injEq] at h
    exact ⟨_, h.symm⟩

theorem recOpen_lift {a : RecArgs} {pre : List CrcReport} {so : Nat} {ps : Bool} {s : RecState} {fl : Nat} {f : FileFields}
    (hp : a.part = []) : recOpen a (lift pre so ps s) fl f = (recOpen a s fl f).map (lift pre so ps) := by
  unfold recOpen
  simp only [hp, ne_eq, not_true, false_and, or_false]
  show (if ¬ s.srcName = some f.name then _ else _) = _
  split
  · show (openSource a s.fs fl f >>= _) = _
    cases openSource a s.fs fl f <;> rfl
  · rfl

theorem recData_lift {a : RecArgs} {pre : List CrcReport} {so : Nat} {ps : Bool} {s : RecState} {fl : Nat} {f : FileFields}
    (hp : a.part = []) : recData a (lift pre so ps s) fl f = (recData a s fl f).map (lift pre so ps) := by
  unfold recData
  simp only [hp, ne_eq, not_true, false_and, if_false]
  show (match s.src with | none => _ | some src => _) = _
  cases s.src with
  | none => rfl
  | some src =>
    dsimp only
    simp only [ok_bind]
    show (repack fl f src s.running a.skipCrc >>= _) = _
    cases repack fl f src s.running a.skipCrc with
    | error e => rfl
    | ok r =>
      obtain ⟨d, src2, run2, rep⟩ := r
      simp only [ok_bind]
      rw [blind_write (blind_lift _ _ _)]
      cases hw : s.write d with
      | error e => rfl
      | ok s' =>
        obtain ⟨fs, rfl⟩ := write_kept hw
        simp [Except.map, lift, ok_bind, pure_eq_ok]

theorem recFile_lift {a : RecArgs} {pre : List CrcReport} {so : Nat} {ps : Bool} {s : RecState} {b : Block} {f : FileFields}
    (hp : a.part = []) (hk : s.skipVolume = false) : recFile a (lift pre so ps s) b f = (recFile a s b f).map (lift pre so ps) := by
  unfold recFile
  rw [if_neg (by show ¬ s.skipVolume = true; simp [hk]), if_neg (by simp [hk]), blind_write (blind_lift _ _ _)]
  cases s.write b.raw with
  | error e => rfl
  | ok s1 =>
    simp only [Except.map, ok_bind]
    rw [recOpen_lift hp]
    cases recOpen a s1 b.flags f with
    | error e => rfl
    | ok s2 =>
      simp only [Except.map, ok_bind]
      exact recData_lift hp

/-- A file with a name that neither state has open. -/
theorem recFile_graft {a : RecArgs} {s0 s : RecState} {b : Block} {f : FileFields} (hk : s.skipVolume = false)
    (h0 : s0.srcName ≠ some f.name) (h : s.srcName ≠ some f.name) : recFile a (graft s0 s) b f = recFile a s b f := by
  unfold recFile
  rw [if_neg (by show ¬ s.skipVolume = true; simp [hk]), if_neg (by simp [hk]), blind_write (blind_graft _)]
  cases hw : s.write b.raw with
  | error e => rfl
  | ok s1 =>
    obtain ⟨fs, rfl⟩ := write_kept hw
    simp only [Except.map, ok_bind]
    have : recOpen a (graft s0 { s with fs := fs }) b.flags f = recOpen a { s with fs := fs } b.flags f := by
      unfold recOpen
      have e1 : (graft s0 { s with fs := fs }).srcName ≠ some f.name ∨ (a.part ≠ [] ∧ (graft s0 { s with fs := fs }).partialSet = false) :=
        Or.inl h0
      have e2 : ({ s with fs := fs } : RecState).srcName ≠ some f.name ∨ (a.part ≠ [] ∧ ({ s with fs := fs } : RecState).partialSet = false) :=
        Or.inl h
      rw [if_pos e1, if_pos e2]
      rfl
    rw [this]

theorem recRecovery_kept {s s' : RecState} {b : Block} (h : recRecovery s b = .ok s') : ∃ fs, s' = { s with fs := fs } := by
  unfold recRecovery at h
  rw [bind_eq_ok] at h
  obtain ⟨⟨rs, ds⟩, _, h⟩ := h
  dsimp only at h
  split at h
  · split at h
    · simp at h
    · rw [bind_eq_ok] at h
      obtain ⟨more, _, h⟩ := h
      exact write_kept h
  · exact write_kept h

theorem blind_recovery {φ : RecState → RecState} (h : Blind φ) {s : RecState} {b : Block} :
    recRecovery (φ s) b = (recRecovery s b).map φ := by
  unfold recRecovery
  cases recSectorsOf b with
  | error e => rfl
  | ok r =>
    obtain ⟨rs, ds⟩ := r
    simp only [ok_bind]
    rw [h.rebuild, h.out, h.fs]
    split
    · cases s.out with
      | none => rfl
      | some p =>
        dsimp only
        cases writeRecoveryRecord b.raw rs ds ((s.fs p).getD []) with
        | error e => rfl
        | ok m => simp only [ok_bind]; exact blind_write h
    · exact blind_write h

theorem blind_other {φ : RecState → RecState} (h : Blind φ) {a : RecArgs} {s : RecState} {b : Block} (hb : b.btype ≠ 0x74) :
    recOther a (φ s) b = (recOther a s b).map φ := by
  unfold recOther
  cases isRecBlock b with
  | error e => rfl
  | ok r =>
    simp only [ok_bind]
    rw [h.skip]
    split
    · exact blind_recovery h
    · split
      · split
        · exact blind_write h
        · rfl
      · split
        · rfl
        · split
          · split
            · exact blind_write h
            · rfl
          · rfl

theorem skipped_nil {a : RecArgs} (hp : a.part = []) (name : Str) : skipped a name = false := by simp [skipped, hp]

theorem inSubset_nil {a : RecArgs} (hp : a.part = []) (name : Str) : inSubset a name = false := by simp [inSubset, hp]

theorem recVolume_lift {a : RecArgs} {pre : List CrcReport} {so : Nat} {ps : Bool} {s : RecState} {b : Block} {name : Str}
    (hp : a.part = []) : recVolume a (lift pre so ps s) b name = (recVolume a s b name).map (fun r => (lift pre so ps r.1, r.2)) := by
  unfold recVolume
  simp only [skipped_nil hp, inSubset_nil hp, Bool.or_false, and_true]
  show (if s.rarName ≠ name then _ else _) = _
  split
  · cases opath name a.extractPaths a.outFolder with
    | error e => rfl
    | ok out =>
      simp only [ok_bind]
      show (if ((s.fs out).isNone || a.ask out) = true then _ else _) = _
      split <;> rfl
  · rfl

theorem recVolume_graft {a : RecArgs} {s0 s : RecState} {b : Block} {name : Str} :
    recVolume a (graft s0 s) b name = (recVolume a s b name).map (fun r => (graft s0 r.1, r.2)) := by
  unfold recVolume
  dsimp only
  show (if s.rarName ≠ name ∧ skipped a name = false then _ else _) = _
  split
  · cases opath name a.extractPaths a.outFolder with
    | error e => rfl
    | ok out =>
      simp only [ok_bind]
      show (if ((s.fs out).isNone || a.ask out) = true then _ else _) = _
      split <;> rfl
  · rfl

theorem recVolume_kept {a : RecArgs} {s : RecState} {b : Block} {name : Str} {r : RecState × Bool} (hp : a.part = [])
    (h : recVolume a s b name = .ok r) : r.1.srcName = s.srcName ∧ r.1.src = s.src ∧ r.1.running = s.running ∧ r.1.skipVolume = false ∧
      r.1.rarName = name ∧ r.1.skipOffset = s.skipOffset ∧ r.1.partialSet = s.partialSet := by
  unfold recVolume at h
  simp only [skipped_nil hp, inSubset_nil hp, Bool.or_false, and_true] at h
  split at h
  · rw [bind_eq_ok] at h
    obtain ⟨out, _, h⟩ := h
    split at h
    · simp only [pure_eq_ok, Except.ok.injEq] at h
      subst h
      exact ⟨rfl, rfl, rfl, rfl, rfl, rfl, rfl⟩
    · simp only [pure_eq_ok, Except.ok.injEq] at h
      subst h
      exact ⟨rfl, rfl, rfl, rfl, rfl, rfl, rfl⟩
  · rename_i hn
    simp only [pure_eq_ok, Except.ok.injEq] at h
    subst h
    exact ⟨rfl, rfl, rfl, rfl, by simpa using hn, rfl, rfl⟩

theorem other_kept {a : RecArgs} {s s' : RecState} {b : Block} (hb : b.btype ≠ 0x74) (h : recOther a s b = .ok s') :
    ∃ fs, s' = { s with fs := fs } := by
  unfold recOther at h
  rw [bind_eq_ok] at h
  obtain ⟨r, _, h⟩ := h
  split at h
  · exact recRecovery_kept h
  · have hs : ∀ x : RecState, (pure s : Res RecState) = .ok x → ∃ fs, x = { s with fs := fs } := by
      intro x hx
      simp only [pure_eq_ok, Except.ok.injEq] at hx
      exact ⟨s.fs, hx.symm⟩
    split at h
    · split at h
      · exact write_kept h
      · exact hs _ h
    · split at h
      · exact hs _ h
      · split at h
        · split at h
          · exact write_kept h
          · exact hs _ h
        · exact hs _ h

theorem other_packed {a : RecArgs} {s : RecState} {b : Block} {f : FileFields} (hb : b.btype = 0x74) (hk : b.kind = .packed f) :
    recOther a s b = recFile a s b f := by
  unfold recOther isRecBlock
  rw [if_neg (by omega)]
  simp [hb, hk, ok_bind]

theorem other_unpacked {a : RecArgs} {s : RecState} {b : Block} (hb : b.btype = 0x74) (hk : ∀ f, b.kind ≠ .packed f) :
    recOther a s b = .error .attrError := by
  unfold recOther isRecBlock
  rw [if_neg (by omega)]
  simp only [hb, ok_bind]
  simp

theorem recFile_kept {a : RecArgs} {s s' : RecState} {b : Block} {f : FileFields} (hk : s.skipVolume = false)
    (h : recFile a s b f = .ok s') : s'.srcName = some f.name ∧ s'.skipVolume = false ∧ s'.rarName = s.rarName := by
  unfold recFile at h
  rw [if_neg (by simp [hk])] at h
  simp only [bind_eq_ok] at h
  obtain ⟨s1, h1, s2, h2, h3⟩ := h
  obtain ⟨fs, rfl⟩ := write_kept h1
  have k2 : s2.srcName = some f.name ∧ s2.skipVolume = false ∧ s2.rarName = s.rarName := by
    unfold recOpen at h2
    split at h2
    · simp only [bind_eq_ok, pure_eq_ok, Except.ok.injEq] at h2
      obtain ⟨src, _, rfl⟩ := h2
      exact ⟨rfl, hk, rfl⟩
    · rename_i hc
      simp only [Except.ok.injEq] at h2
      subst h2
      refine ⟨?_, hk, rfl⟩
      by_cases hn : s.srcName = some f.name
      · exact hn
      · exact absurd (Or.inl hn) hc
  unfold recData at h3
  split at h3
  · simp at h3
  · simp only [bind_eq_ok, pure_eq_ok, Except.ok.injEq] at h3
    obtain ⟨src, _, x, _, s3, h3, rfl⟩ := h3
    obtain ⟨fs3, rfl⟩ := write_kept h3
    exact k2

/-- With other reports before, the loop does the same. -/
theorem loop_lift {a : RecArgs} {pre : List CrcReport} {so : Nat} {ps : Bool} (hp : a.part = []) (l : List Entry)
    (hl : ∀ e ∈ l, e.btype ≠ 0x6A ∧ e.btype ≠ 0x69) : ∀ s : RecState, s.skipVolume = false →
    recLoop a (lift pre so ps s) (l.map entryBlock) = (recLoop a s (l.map entryBlock)).map (fun r => (lift pre so ps r.1, r.2)) := by
  induction l with
  | nil => intro s _; rfl
  | cons e t ih =>
    intro s hs
    have ih' := ih (fun x hx => hl x (by simp [hx]))
    obtain ⟨h6a, h69⟩ := hl e (by simp)
    simp only [List.map_cons, recLoop]
    have key : recBlock a (lift pre so ps s) (entryBlock e) = (recBlock a s (entryBlock e)).map (fun r => (lift pre so ps r.1, r.2)) ∧
        ∀ r, recBlock a s (entryBlock e) = .ok r → r.1.skipVolume = false := by
      unfold recBlock
      have e1 : ¬ (entryBlock e).btype = 0x69 := h69
      have e2 : ¬ (entryBlock e).btype = 0x6A := h6a
      simp only [if_neg e1, if_neg e2]
      by_cases h71 : (entryBlock e).btype = 0x71
      · simp only [if_pos h71]
        cases hk : (entryBlock e).kind with
        | rarFile name =>
          dsimp only
          exact ⟨recVolume_lift hp, fun r hr => (recVolume_kept hp hr).2.2.2.1⟩
        | _ => exact ⟨rfl, fun r hr => by simp at hr⟩
      · simp only [if_neg h71]
        by_cases h74 : (entryBlock e).btype = 0x74
        · by_cases hk : ∃ f, (entryBlock e).kind = .packed f
          · obtain ⟨f, hk⟩ := hk
            rw [other_packed h74 hk, other_packed h74 hk, recFile_lift hp hs]
            constructor
            · cases recFile a s (entryBlock e) f <;> rfl
            · intro r hr
              simp only [bind_eq_ok, pure_eq_ok, Except.ok.injEq] at hr
              obtain ⟨s', hs', rfl⟩ := hr
              exact (recFile_kept hs hs').2.1
          · have hk' : ∀ f, (entryBlock e).kind ≠ .packed f := fun f hf => hk ⟨f, hf⟩
            rw [other_unpacked h74 hk', other_unpacked h74 hk']
            exact ⟨rfl, fun r hr => by simp at hr⟩
        · rw [blind_other (blind_lift pre so ps) h74]
          constructor
          · cases recOther a s (entryBlock e) <;> rfl
          · intro r hr
            simp only [bind_eq_ok, pure_eq_ok, Except.ok.injEq] at hr
            obtain ⟨s', hs', rfl⟩ := hr
            obtain ⟨fs, rfl⟩ := other_kept h74 hs'
            exact hs
    rw [key.1]
    cases hb : recBlock a s (entryBlock e) with
    | error er => rfl
    | ok r =>
      obtain ⟨s', go⟩ := r
      have hsk := key.2 _ hb
      simp only [Except.map, ok_bind]
      cases go with
      | false => rfl
      | true =>
        simp only [if_true]
        exact ih' s' hsk

/-- The outcome with other reports before. -/
def before (pre : List CrcReport) (r : Res (FS × List CrcReport × Bool)) : Res (FS × List CrcReport × Bool) :=
  r.map (fun x => (x.1, pre ++ x.2.1, x.2.2))

theorem outcome_lift {pre : List CrcReport} {so : Nat} {ps : Bool} {r : Res (RecState × Bool)} :
    outcome (r.map (fun r => (lift pre so ps r.1, r.2))) = before pre (outcome r) := by
  cases r <;> rfl

/-- An open source with another name than the next file does not matter. -/
theorem loop_graft {a : RecArgs} {s0 : RecState} (hp : a.part = []) (l : List Entry)
    (hl : ∀ e ∈ l, e.btype ≠ 0x6A ∧ e.btype ≠ 0x69) (hn : ∀ n, s0.srcName = some n → (l.filterMap archivedName).head? ≠ some n) :
    ∀ s : RecState, s.skipVolume = false → s.srcName = none →
      outcome (recLoop a (graft s0 s) (l.map entryBlock)) = outcome (recLoop a s (l.map entryBlock)) := by
  induction l with
  | nil => intro s _ _; rfl
  | cons e t ih =>
    intro s hs hsn
    obtain ⟨h6a, h69⟩ := hl e (by simp)
    have e1 : ¬ (entryBlock e).btype = 0x69 := h69
    have e2 : ¬ (entryBlock e).btype = 0x6A := h6a
    by_cases hk : ∃ f, (entryBlock e).btype = 0x74 ∧ (entryBlock e).kind = .packed f
    · obtain ⟨f, h74, hk⟩ := hk
      have ha : archivedName e = some f.name := by
        have h74' : e.btype = 0x74 := h74
        have hk' : e.kind = .packed f := hk
        simp [archivedName, hk', h74']
      have hne : s0.srcName ≠ some f.name := fun h0 => hn _ h0 (by simp [ha])
      have hb : recBlock a (graft s0 s) (entryBlock e) = recBlock a s (entryBlock e) := by
        unfold recBlock
        simp only [if_neg e1, if_neg e2]
        rw [if_neg (by omega), if_neg (by omega), other_packed h74 hk, other_packed h74 hk, recFile_graft hs hne (by simp [hsn])]
      simp only [List.map_cons, recLoop, hb]
    · have hnp : archivedName e = none := by
        unfold archivedName
        split
        · rename_i f hf
          rw [if_neg]
          exact fun h => hk ⟨f, h, hf⟩
        · rfl
      have ih' := ih (fun x hx => hl x (by simp [hx])) (by simpa [List.filterMap_cons, hnp] using hn)
      have key : recBlock a (graft s0 s) (entryBlock e) = (recBlock a s (entryBlock e)).map (fun r => (graft s0 r.1, r.2)) ∧
          ∀ r, recBlock a s (entryBlock e) = .ok r → r.1.skipVolume = false ∧ r.1.srcName = none := by
        unfold recBlock
        simp only [if_neg e1, if_neg e2]
        by_cases h71 : (entryBlock e).btype = 0x71
        · simp only [if_pos h71]
          cases hk : (entryBlock e).kind with
          | rarFile name =>
            dsimp only
            refine ⟨recVolume_graft, fun r hr => ?_⟩
            obtain ⟨k1, _, _, k2, _⟩ := recVolume_kept hp hr
            exact ⟨k2, by rw [k1, hsn]⟩
          | _ => exact ⟨rfl, fun r hr => by simp at hr⟩
        · simp only [if_neg h71]
          by_cases h74 : (entryBlock e).btype = 0x74
          · have hk' : ∀ f, (entryBlock e).kind ≠ .packed f := fun f hf => hk ⟨f, h74, hf⟩
            rw [other_unpacked h74 hk', other_unpacked h74 hk']
            exact ⟨rfl, fun r hr => by simp at hr⟩
          · rw [blind_other (blind_graft s0) h74]
            constructor
            · cases recOther a s (entryBlock e) <;> rfl
            · intro r hr
              simp only [bind_eq_ok, pure_eq_ok, Except.ok.injEq] at hr
              obtain ⟨s', hs', rfl⟩ := hr
              obtain ⟨fs, rfl⟩ := other_kept h74 hs'
              exact ⟨hs, hsn⟩
      simp only [List.map_cons, recLoop]
      rw [key.1]
      cases hb : recBlock a s (entryBlock e) with
      | error er => rfl
      | ok r =>
        obtain ⟨s', go⟩ := r
        obtain ⟨k1, k2⟩ := key.2 _ hb
        simp only [Except.map, ok_bind]
        cases go with
        | false => rfl
        | true =>
          simp only [if_true]
          exact ih' s' k1 k2

/-- The names that the state keeps are the last ones. -/
theorem loop_names {a : RecArgs} (hp : a.part = []) (l : List Entry) (hl : ∀ e ∈ l, e.btype ≠ 0x6A ∧ e.btype ≠ 0x69) :
    ∀ {s s' : RecState}, s.skipVolume = false → recLoop a s (l.map entryBlock) = .ok (s', true) →
      s'.skipVolume = false ∧ s'.srcName = (l.filterMap archivedName).getLast?.or s.srcName ∧
        s'.rarName = ((l.filterMap volumeName).getLast?).getD s.rarName := by
  induction l with
  | nil =>
    intro s s' hs h
    simp only [List.map_nil, recLoop, Except.ok.injEq, Prod.mk.injEq] at h
    obtain ⟨rfl, _⟩ := h
    exact ⟨hs, by simp, by simp⟩
  | cons e t ih =>
    intro s s' hs h
    obtain ⟨h6a, h69⟩ := hl e (by simp)
    have e1 : ¬ (entryBlock e).btype = 0x69 := h69
    have e2 : ¬ (entryBlock e).btype = 0x6A := h6a
    simp only [List.map_cons, recLoop, bind_eq_ok] at h
    obtain ⟨⟨s1, go⟩, h1, h2⟩ := h
    dsimp only at h2
    cases go with
    | false => simp [pure_eq_ok] at h2
    | true =>
      rw [if_pos rfl] at h2
      have key : s1.skipVolume = false ∧ s1.srcName = (archivedName e).or s.srcName ∧ s1.rarName = (volumeName e).getD s.rarName := by
        unfold recBlock at h1
        simp only [if_neg e1, if_neg e2] at h1
        by_cases h71 : (entryBlock e).btype = 0x71
        · simp only [if_pos h71] at h1
          cases hk : (entryBlock e).kind with
          | rarFile name =>
            rw [hk] at h1
            dsimp only at h1
            have hk' : e.kind = .rarFile name := hk
            have h71' : e.btype = 0x71 := h71
            obtain ⟨k1, _, _, k2, k3, _⟩ := recVolume_kept hp h1
            exact ⟨k2, by simpa [archivedName, hk'] using k1, by simpa [volumeName, hk', h71'] using k3⟩
          | _ => rw [hk] at h1; simp at h1
        · simp only [if_neg h71] at h1
          rw [bind_eq_ok] at h1
          obtain ⟨s2, h1, h3⟩ := h1
          simp only [pure_eq_ok, Except.ok.injEq, Prod.mk.injEq, and_true] at h3
          subst h3
          have hv : volumeName e = none := by
            unfold volumeName
            split
            · exact if_neg h71
            · rfl
          rw [hv]
          by_cases h74 : (entryBlock e).btype = 0x74
          · by_cases hk : ∃ f, (entryBlock e).kind = .packed f
            · obtain ⟨f, hk⟩ := hk
              rw [other_packed h74 hk] at h1
              obtain ⟨k1, k2, k3⟩ := recFile_kept hs h1
              have h74' : e.btype = 0x74 := h74
              have hk' : e.kind = .packed f := hk
              exact ⟨k2, by simpa [archivedName, hk', h74'] using k1, by simpa using k3⟩
            · rw [other_unpacked h74 (fun f hf => hk ⟨f, hf⟩)] at h1
              simp at h1
          · obtain ⟨fs, rfl⟩ := other_kept h74 h1
            have ha : archivedName e = none := by
              unfold archivedName
              split
              · exact if_neg h74
              · rfl
            rw [ha]
            exact ⟨hs, by simp, by simp⟩
      obtain ⟨k1, k2, k3⟩ := key
      obtain ⟨i1, i2, i3⟩ := ih (fun x hx => hl x (by simp [hx])) k1 h2
      refine ⟨i1, ?_, ?_⟩
      · rw [i2, k2]
        cases ha : archivedName e with
        | none => simp [List.filterMap_cons, ha]
        | some n =>
          rw [List.filterMap_cons_some ha, List.getLast?_cons]
          cases (t.filterMap archivedName).getLast? <;> simp
      · rw [i3, k3]
        cases ha : volumeName e with
        | none => simp [List.filterMap_cons, ha]
        | some n =>
          rw [List.filterMap_cons_some ha, List.getLast?_cons]
          cases (t.filterMap volumeName).getLast? <;> simp

/-- Starting anew and going on give the same. -/
theorem loop_anew {a : RecArgs} {t : RecState} (hp : a.part = []) (l : List Entry) (hl : ∀ e ∈ l, e.btype ≠ 0x6A ∧ e.btype ≠ 0x69)
    (hv : ∀ e ∈ l.head?, ∃ n, volumeName e = some n ∧ n ≠ []) (hr : (l.filterMap volumeName).head? ≠ some t.rarName)
    (hn : ∀ n, t.srcName = some n → (l.filterMap archivedName).head? ≠ some n) :
    outcome (recLoop a t (l.map entryBlock)) = before t.reports (outcome (recLoop a { fs := t.fs } (l.map entryBlock))) := by
  cases l with
  | nil => simp [recLoop, outcome, before, ok_bind, pure_eq_ok, Except.map]
  | cons e l =>
    obtain ⟨n, hvn, hn0⟩ := hv e (by simp)
    have hk : e.kind = .rarFile n ∧ e.btype = 0x71 := by
      unfold volumeName at hvn
      split at hvn
      · rename_i m hm
        split at hvn
        · rename_i hb
          simp only [Option.some.injEq] at hvn
          rw [← hvn]
          exact ⟨hm, hb⟩
        · simp at hvn
      · simp at hvn
    have hrn : t.rarName ≠ n := by
      intro hc
      exact hr (by simp [hvn, hc])
    have han : archivedName e = none := by simp [archivedName, hk.1]
    have hblk : ∀ s : RecState, recBlock a s (entryBlock e) = recVolume a s (entryBlock e) n := by
      intro s
      have b71 : (entryBlock e).btype = 0x71 := hk.2
      have bk : (entryBlock e).kind = .rarFile n := hk.1
      unfold recBlock
      rw [if_neg (by omega), if_neg (by omega), if_pos b71, bk]
    simp only [List.map_cons, recLoop, hblk]
    cases ho : opath n a.extractPaths a.outFolder with
    | error er =>
      have hv : ∀ s : RecState, s.rarName ≠ n → recVolume a s (entryBlock e) n = .error er := by
        intro s hs
        unfold recVolume
        simp only [skipped_nil hp, inSubset_nil hp, Bool.or_false, and_true]
        rw [if_pos hs, ho]
        rfl
      rw [hv t hrn, hv { fs := t.fs } (Ne.symm hn0)]
      rfl
    | ok out =>
      by_cases hc : ((t.fs out).isNone || a.ask out) = true
      · have hv : ∀ s : RecState, s.rarName ≠ n → s.fs = t.fs → recVolume a s (entryBlock e) n =
            .ok ({ s with skipVolume := false, rebuild := hasFlag (entryBlock e).flags 1, rarName := n, fs := s.fs.set out (some []), out := some out }, true) := by
          intro s hs hf
          unfold recVolume
          simp only [skipped_nil hp, inSubset_nil hp, Bool.or_false, and_true]
          rw [if_pos hs, ho, ok_bind, if_pos (by rw [hf]; exact hc)]
          rfl
        rw [hv t hrn rfl, hv { fs := t.fs } (Ne.symm hn0) rfl]
        simp only [ok_bind, if_true]
        have hl' : ∀ e ∈ l, e.btype ≠ 0x6A ∧ e.btype ≠ 0x69 := fun x hx => hl x (by simp [hx])
        have := loop_lift (a := a) (pre := t.reports) (so := t.skipOffset) (ps := t.partialSet) hp l hl'
          (graft t { rarName := n, rebuild := hasFlag (entryBlock e).flags 1, fs := t.fs.set out (some []), out := some out }) rfl
        have hs : lift t.reports t.skipOffset t.partialSet
            (graft t { rarName := n, rebuild := hasFlag (entryBlock e).flags 1, fs := t.fs.set out (some []), out := some out }) =
            { t with skipVolume := false, rebuild := hasFlag (entryBlock e).flags 1, rarName := n, fs := t.fs.set out (some []), out := some out } := by
          simp [lift, graft]
        rw [hs] at this
        rw [this, outcome_lift, loop_graft hp l hl' (by simpa [List.filterMap_cons, han] using hn) _ rfl rfl]
      · have hv : ∀ s : RecState, s.rarName ≠ n → s.fs = t.fs → recVolume a s (entryBlock e) n =
            .ok ({ s with skipVolume := false, rebuild := hasFlag (entryBlock e).flags 1, rarName := n }, false) := by
          intro s hs hf
          unfold recVolume
          simp only [skipped_nil hp, inSubset_nil hp, Bool.or_false, and_true]
          rw [if_pos hs, ho, ok_bind, if_neg (by rw [hf]; exact hc)]
          rfl
        rw [hv t hrn rfl, hv { fs := t.fs } (Ne.symm hn0) rfl]
        simp [ok_bind, outcome, before, Except.map, pure_eq_ok]

theorem recLoop_append {a : RecArgs} (l1 l2 : List Block) : ∀ s : RecState, recLoop a s (l1 ++ l2) = (do
    let (s1, go) ← recLoop a s l1
    if go then recLoop a s1 l2 else return (s1, false)) := by
  induction l1 with
  | nil => intro s; simp [recLoop, ok_bind]
  | cons b t ih =>
    intro s
    simp only [List.cons_append, recLoop]
    cases recBlock a s b with
    | error e => rfl
    | ok r =>
      obtain ⟨s1, go⟩ := r
      simp only [ok_bind]
      cases go with
      | false => rfl
      | true => simp only [if_true]; exact ih s1

theorem reconstruct_untouched {a : RecArgs} {fs fs' : FS} {r : List CrcReport} {go : Bool} {p : Path}
    (hp : ∀ name, opath name a.extractPaths a.outFolder ≠ .ok p) (h : reconstruct a fs = .ok (fs', r, go)) : fs' p = fs p := by
  unfold reconstruct at h
  split at h
  · simp at h
  · simp only [bind_eq_ok, pure_eq_ok, Except.ok.injEq, Prod.mk.injEq] at h
    obtain ⟨bs, _, ⟨s, g⟩, hl, h1, _⟩ := h
    rw [← h1]
    exact (loop_untouched (Or.inl hp) bs ⟨rfl, by simp⟩ hl).same

/-- An SRR file: where it is, its bytes and its contents. -/
structure Srr where
  path : Path
  file : Bytes
  contents : List Entry

theorem parts_ne {l : List Srr} {e : Entry} (h : e ∈ l.flatMap (fun i => otherPart i.contents)) : e.btype ≠ 0x6A ∧ e.btype ≠ 0x69 := by
  obtain ⟨i, _, he⟩ := List.mem_flatMap.mp h
  simp only [otherPart, List.mem_filter, Bool.and_eq_true, bne_iff_ne] at he
  exact he.2

/-- Going on with further SRR files is rebuilding them one after the other. -/
theorem rest_rebuilt {a : RecArgs} (hx : a.extractFiles = false) (hp : a.part = []) (rest : List Srr) :
    ∀ (done : List Srr) (t : RecState), (∀ i ∈ rest, Contents i.file i.contents ∧ t.fs i.path = some i.file ∧
        ∀ name, opath name a.extractPaths a.outFolder ≠ .ok i.path) →
      (∀ l i r, rest = l ++ i :: r → StartsAnew ((done ++ l).flatMap (fun i => otherPart i.contents)) (otherPart i.contents)) →
      t.skipVolume = false →
      t.srcName = ((done.flatMap (fun i => otherPart i.contents)).filterMap archivedName).getLast? →
      t.rarName = (((done.flatMap (fun i => otherPart i.contents)).filterMap volumeName).getLast?).getD [] →
      outcome (recLoop a t ((rest.flatMap (fun i => otherPart i.contents)).map entryBlock)) =
        before t.reports (rebuildAll a (rest.map (·.path)) t.fs) := by
  induction rest with
  | nil =>
    intro done t _ _ _ _ _
    simp [recLoop, outcome, before, rebuildAll, Except.map, ok_bind, pure_eq_ok]
  | cons i rest ih =>
    intro done t hall hst hsk hsn hrn
    obtain ⟨hc, hf, hout⟩ := hall i (by simp)
    have hi := hst [] i rest rfl
    rw [List.append_nil] at hi
    have hne : ∀ e ∈ otherPart i.contents, e.btype ≠ 0x6A ∧ e.btype ≠ 0x69 := fun e he => by
      simp only [otherPart, List.mem_filter, Bool.and_eq_true, bne_iff_ne] at he
      exact he.2
    have hanew := loop_anew (a := a) (t := t) hp (otherPart i.contents) hne hi.volume (by
        rw [hrn]
        cases hl : ((done.flatMap (fun i => otherPart i.contents)).filterMap volumeName).getLast? with
        | some n => exact hi.otherVolume n hl
        | none =>
          rw [Option.getD_none]
          intro hc2
          cases ho : otherPart i.contents with
          | nil => rw [ho] at hc2; simp at hc2
          | cons e l =>
            obtain ⟨n, hn, hn0⟩ := hi.volume e (by rw [ho]; rfl)
            rw [ho, List.filterMap_cons_some hn] at hc2
            simp at hc2
            exact hn0 hc2)
      (fun n h1 => hi.otherFile n (by rw [hsn] at h1; exact h1))
    have hrec : reconstruct { a with srr := i.path } t.fs = outcome (recLoop a { fs := t.fs } ((otherPart i.contents).map entryBlock)) := by
      rw [reconstruct_entries (a := { a with srr := i.path }) hx hf hc, recLoop_srr]
      intro b hb
      obtain ⟨e, he, rfl⟩ := List.mem_map.mp hb
      exact (hne e he).1
    rw [List.flatMap_cons, List.map_append, recLoop_append]
    simp only [List.map_cons, rebuildAll]
    rw [hrec]
    cases hl : recLoop a t ((otherPart i.contents).map entryBlock) with
    | error e =>
      rw [hl] at hanew
      cases hl2 : outcome (recLoop a { fs := t.fs } ((otherPart i.contents).map entryBlock)) with
      | error e2 => rw [hl2] at hanew; exact hanew
      | ok r => rw [hl2] at hanew; simp [outcome, before, Except.map] at hanew
    | ok r =>
      obtain ⟨t1, go⟩ := r
      rw [hl] at hanew
      cases hl2 : outcome (recLoop a { fs := t.fs } ((otherPart i.contents).map entryBlock)) with
      | error e2 => rw [hl2] at hanew; simp [outcome, before, Except.map, ok_bind, pure_eq_ok] at hanew
      | ok r =>
        obtain ⟨fs1, r1, go1⟩ := r
        rw [hl2] at hanew
        simp only [outcome, before, Except.map, ok_bind, pure_eq_ok, Except.ok.injEq, Prod.mk.injEq] at hanew
        obtain ⟨q1, q2, q3⟩ := hanew
        subst q3
        simp only [ok_bind]
        cases go with
        | false => simp [outcome, before, Except.map, ok_bind, pure_eq_ok, q1, q2]
        | true =>
          simp only [if_true]
          obtain ⟨n1, n2, n3⟩ := loop_names hp (otherPart i.contents) hne hsk hl
          have := ih (done ++ [i]) t1 ?_ ?_ n1 ?_ ?_
          · rw [this, q1, q2]
            cases rebuildAll a (rest.map (·.path)) fs1 with
            | error e => rfl
            | ok r => simp [before, Except.map, ok_bind, pure_eq_ok]
          · intro j hj
            obtain ⟨k1, k2, k3⟩ := hall j (by simp [hj])
            refine ⟨k1, ?_, k3⟩
            rw [q1, ← k2]
            refine reconstruct_untouched (a := { a with srr := i.path }) (r := r1) (go := true) k3 ?_
            rw [hrec, hl2]
          · intro l j r hlr
            have := hst (i :: l) j r (by rw [hlr]; rfl)
            rwa [List.append_cons] at this
          · rw [n2, hsn, List.flatMap_append, List.filterMap_append, List.getLast?_append]
            simp
          · rw [n3, hrn, List.flatMap_append, List.filterMap_append, List.getLast?_append]
            simp

theorem otherPart_stored (c : List Entry) : otherPart (storedPart c) = [] := by
  unfold otherPart storedPart
  rw [List.filter_filter, List.filter_eq_nil_iff]
  intro e _ h
  simp at h
  omega

theorem otherPart_idem (c : List Entry) : otherPart (otherPart c) = otherPart c := by
  unfold otherPart
  rw [List.filter_filter]
  exact List.filter_congr (fun e _ => Bool.and_self _)

/-- C110: reconstruction from the SRR that `merge_srrs` makes gives the same files and reports as reconstruction from the single
SRR files one after the other, when each of these starts with a volume that has another name than the last volume before it, and
its first archived file has another name than the last one before it. -/
theorem merged_rebuild_same_partial {a : RecArgs} {fs : FS} {inputs : List Srr} {app : Option Str} {m : Path} {new : Bytes}
    (hx : a.extractFiles = false) (hp : a.part = []) (hne : inputs ≠ [])
    (hin : ∀ i ∈ inputs, Contents i.file i.contents ∧ fs i.path = some i.file)
    (hout : ∀ i ∈ inputs, ∀ name, opath name a.extractPaths a.outFolder ≠ .ok i.path)
    (hm : mergeSrrs (inputs.map (·.file)) app = .ok new) (hl : 20 ≤ new.length) (hf : fs m = some new)
    (hst : ∀ l i r, inputs = l ++ i :: r → StartsAnew (l.flatMap (fun i => otherPart i.contents)) (otherPart i.contents)) :
    reconstruct { a with srr := m } fs = rebuildAll a (inputs.map (·.path)) fs := by
  let ins := inputs.map (fun i => (i.file, i.contents))
  have hins : ins.map (·.1) = inputs.map (·.file) := by simp [ins, Function.comp_def]
  have hcs : ∀ i ∈ ins, Contents i.1 i.2 := by
    intro i hi
    obtain ⟨j, hj, rfl⟩ := List.mem_map.mp hi
    exact (hin j hj).1
  have hhdr : ∃ hdr, mkSrrHeader (firstName (app.getD [] :: ins.flatMap (fun i => appNames i.2))) = .ok hdr := by
    obtain ⟨hall, s, o, s1, o1, s2, o2, s3, o3⟩ := mergeGatherAll_items (app := app) hcs
    cases hh : mkSrrHeader (firstName (app.getD [] :: ins.flatMap (fun i => appNames i.2))) with
    | ok hdr => exact ⟨hdr, rfl⟩
    | error e =>
      exfalso
      have hpick : pickName app (ins.flatMap (fun i => appNames i.2)) =
          some (firstName (app.getD [] :: ins.flatMap (fun i => appNames i.2))) := by
        cases app with
        | some a => exact pickName_some
        | none =>
          obtain ⟨i, t, hi⟩ := List.exists_cons_of_ne_nil (show ins ≠ [] by simpa [ins] using hne)
          have := appNames_ne_nil (hcs i (by rw [hi]; simp))
          obtain ⟨a, u, hau⟩ := List.exists_cons_of_ne_nil this
          rw [hi, List.flatMap_cons, hau, List.cons_append]
          unfold pickName
          rw [if_pos (Or.inl rfl), pickName_some]
          rfl
      rw [← hins] at hm
      unfold mergeSrrs at hm
      simp only [hall, ok_bind, hpick, hh] at hm
      simp at hm
  obtain ⟨hdr, hhdr⟩ := hhdr
  obtain ⟨new', h1, h2, h3⟩ := merge_result (inputs := ins) (app := app) (by simpa [ins] using hne) hcs hhdr
  rw [hins, hm] at h1
  cases h1
  have hcont := h3 hl
  have ho : ∀ ins : List (Bytes × List Entry), otherPart (ins.flatMap (fun i => storedPart i.2)) = [] ∧
      otherPart (ins.flatMap (fun i => otherPart i.2)) = ins.flatMap (fun i => otherPart i.2) := by
    intro ins
    induction ins with
    | nil => exact ⟨rfl, rfl⟩
    | cons i t ih => simp only [List.flatMap_cons, otherPart_append, otherPart_stored, otherPart_idem, ih.1, ih.2, List.append_nil, and_self]
  have hoc : otherPart (⟨0x69, .srrHeader (firstName (app.getD [] :: ins.flatMap (fun i => appNames i.2))), hdr, []⟩ ::
          (ins.flatMap (fun i => storedPart i.2) ++ ins.flatMap (fun i => otherPart i.2))) =
      inputs.flatMap (fun i => otherPart i.contents) := by
    rw [show ∀ (e : Entry) l, e :: l = [e] ++ l from fun _ _ => rfl, otherPart_append, otherPart_append, (ho ins).1, (ho ins).2]
    simp [otherPart, ins, List.flatMap_map]
  rw [reconstruct_entries (a := { a with srr := m }) hx hf hcont, hoc, recLoop_srr]
  · have := rest_rebuilt hx hp inputs [] { fs := fs } (fun i hi => ⟨(hin i hi).1, (hin i hi).2, hout i hi⟩)
      (by simpa using hst) rfl rfl rfl
    rw [this]
    show before [] _ = _
    cases rebuildAll a (inputs.map (·.path)) fs <;> rfl
  · intro b hb
    obtain ⟨e, he, rfl⟩ := List.mem_map.mp hb
    exact (parts_ne he).1

end Rescene.Props
