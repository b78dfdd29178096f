import Verif.Lemmas.Info
import Verif.Lemmas.Contents
import Verif.Lemmas.Volume
import Verif.Spec.Info
import Verif.Props.Edit
/-
C15: the content hash of an SRR.
-/
namespace Rescene.Props
open Rescene Rescene.Spec

theorem hashed_concat (es : List Entry) (e : Entry) : hashed (es ++ [e]) = entriesBytes es ++ e.header := by
  simp [hashed]

/-- The kinds that belong to block types only. -/
theorem complete_type_rarFile {b : Block} {n : Str} (h : Complete b) (hk : b.kind = .rarFile n) : b.btype = 0x71 := by
  have := h.parsed
  by_cases hc : b.hsize = 7 ∧ b.btype ≠ 0x69
  · rw [if_pos hc] at this
    rw [this] at hk
    simp [plainBlock] at hk
  · obtain ⟨add, hm⟩ := complete_kind h hc
    rw [hk] at hm
    unfold mkKind at hm
    by_cases c1 : b.btype = 0x69
    · rw [if_pos c1] at hm
      simp only [bind_eq_ok, pure_eq_ok, Except.ok.injEq, Prod.mk.injEq] at hm
      obtain ⟨k, hp, _, rfl⟩ := hm
      unfold parseSrrHeader at hp
      split at hp
      · simp [bind_eq_ok] at hp
      · simp at hp
    rw [if_neg c1] at hm
    by_cases c2 : b.btype = 0x6A
    · rw [if_pos c2] at hm; simp [bind_eq_ok] at hm
    rw [if_neg c2] at hm
    by_cases c3 : b.btype = 0x71
    · exact c3
    rw [if_neg c3] at hm
    repeat' split at hm
    all_goals (try simp [bind_eq_ok] at hm)
    obtain ⟨a, p, _, hm⟩ := hm
    split at hm
    · simp [bind_eq_ok] at hm
    · simp at hm

theorem complete_header_kind {b : Block} (h : Complete b) (ht : b.btype = 0x69) : ∃ a, b.kind = .srrHeader a := by
  obtain ⟨add, hm⟩ := complete_kind h (fun hc => hc.2 ht)
  unfold mkKind at hm
  rw [if_pos ht] at hm
  simp only [bind_eq_ok, pure_eq_ok, Except.ok.injEq, Prod.mk.injEq] at hm
  obtain ⟨k, hp, _, rfl⟩ := hm
  unfold parseSrrHeader at hp
  split at hp
  · simp only [bind_eq_ok, pure_eq_ok, Except.ok.injEq] at hp
    obtain ⟨_, _, s, _, hp⟩ := hp
    exact ⟨s, hp.symm⟩
  · simp only [pure_eq_ok, Except.ok.injEq] at hp
    exact ⟨[], hp.symm⟩

theorem complete_newSub_size {b : Block} (h : Complete b) {f : FileFields} {rr : Option (Nat × Nat)}
    (ht : b.btype = 0x7A) (hk : b.kind = .newSub f rr) : b.addSize = f.packedSize := by
  have h7 : b.hsize ≠ 7 := by
    intro hc
    have := h.parsed
    rw [if_pos ⟨hc, by omega⟩] at this
    rw [this] at hk
    simp [plainBlock] at hk
  obtain ⟨add, hm⟩ := complete_kind h (fun hc => h7 hc.1)
  rw [ht, hk] at hm
  unfold mkKind at hm
  simp only [show ¬ (0x7A = 0x69) by decide, show ¬ (0x7A = 0x6A) by decide, show ¬ (0x7A = 0x71) by decide,
    show ¬ (0x7A = 0x6B) by decide, show ¬ (0x7A = 0x6C) by decide, show ¬ (0x7A = 0x73) by decide,
    show ¬ (0x7A = 0x74) by decide, if_false, if_true, bind_eq_ok] at hm
  obtain ⟨x, _, hm⟩ := hm
  split at hm
  · simp only [bind_eq_ok, pure_eq_ok, Except.ok.injEq, Prod.mk.injEq, Kind.newSub.injEq] at hm
    obtain ⟨rs, _, ds, _, h1, h2, _⟩ := hm
    rw [← h1, h2]
  · simp only [pure_eq_ok, Except.ok.injEq, Prod.mk.injEq, Kind.newSub.injEq] at hm
    rw [← hm.1, hm.2.1]

theorem header_of_complete {b : Block} (h : Complete b) (d : Bytes) : Entry.header ⟨b.btype, b.kind, b.raw, d⟩ = b.raw.take b.hsize := by
  obtain ⟨_, _, h3⟩ := complete_fields h
  unfold Entry.header
  rw [unpackAt_ofLe h3]

/-- What the hash needs of a volume: the key and the bytes. -/
def hashPart (file : Bytes) (r : RarInfo) : Str × Bytes := (r.key, readAt file r.start (r.stop - r.start))

theorem rars_of_layout {lower : Str → Str} {file : Bytes} (l : List Item) : ∀ (pre : Bytes), file = pre ++ itemsBytes l →
    (∀ x ∈ l, Complete x.1) → (∀ x ∈ l, (toEntry x).Reportable) → (∀ x ∈ l, DataOk (toEntry x)) →
    (rarsOf lower none ((layout pre.length l).map (·.1))).map (hashPart file) =
      (volumesOf (l.map toEntry)).map (fun v => (volumeKey lower v.1, hashed v.2)) ∧
    ∀ (r : RarInfo) (es : List Entry), r.start + (entriesBytes es).length = pre.length →
      readAt file r.start (entriesBytes es).length = entriesBytes es →
      readAt file r.start (r.stop - r.start) = hashed es →
      (rarsOf lower (some r) ((layout pre.length l).map (·.1))).map (hashPart file) =
        (r.key, hashed (es ++ (l.map toEntry).takeWhile Entry.inVolume)) ::
          (volumesOf (l.map toEntry)).map (fun v => (volumeKey lower v.1, hashed v.2)) := by
  induction l with
  | nil =>
    intro pre hf _ _ _
    refine ⟨rfl, ?_⟩
    intro r es h1 h2 h3
    simp [layout, rarsOf, volumesOf, hashPart, h3]
  | cons x t ih =>
    intro pre hf hc hr hd
    have hcx := hc x (by simp)
    have hrx := hr x (by simp)
    have hdx := hd x (by simp)
    obtain ⟨ih1, ih2⟩ := ih (pre ++ itemBytes x) (by rw [hf]; simp) (fun y hy => hc y (List.mem_cons_of_mem _ hy))
      (fun y hy => hr y (List.mem_cons_of_mem _ hy)) (fun y hy => hd y (List.mem_cons_of_mem _ hy))
    rw [List.length_append] at ih1 ih2
    have hlay : (layout pre.length (x :: t)).map (·.1) =
        at_ x.1 pre.length :: (layout (pre.length + (itemBytes x).length) t).map (·.1) := rfl
    have hhd : (toEntry x).header = x.1.raw.take x.1.hsize := header_of_complete hcx x.2
    rw [hlay]
    by_cases h71 : x.1.btype = 0x71
    · obtain ⟨⟨n, hk⟩, hraw⟩ := hrx.1 h71
      have hk : x.1.kind = .rarFile n := hk
      have hx2 : x.2 = [] := dataOk_other hdx (by omega)
      rw [hhd] at hraw
      have hraw : x.1.raw.take x.1.hsize = x.1.raw := hraw
      have hlen : x.1.raw.length = x.1.hsize := by
        have h1 := congrArg List.length hraw
        have h2 := hcx.len
        simp only [List.length_take] at h1
        omega
      have hib : (itemBytes x).length = x.1.hsize := by
        unfold itemBytes; rw [hx2]; simp [hlen]
      have hvol : volumesOf ((x :: t).map toEntry) = (n, (t.map toEntry).takeWhile Entry.inVolume) :: volumesOf (t.map toEntry) := by
        rw [List.map_cons, volumesOf.eq_def]
        simp only [toEntry, hk]
      have hstart := ih2 ⟨basename (lower n), n, 0, pre.length + x.1.hsize, pre.length + x.1.hsize, none⟩ []
        (by simp [entriesBytes, hib]) (by simp [entriesBytes, readAt]) (by simp [readAt, hashed, entriesBytes])
      have hstep : ∀ cur, rarsOf lower cur (at_ x.1 pre.length :: (layout (pre.length + (itemBytes x).length) t).map (·.1)) =
          cur.toList ++ rarsOf lower (some ⟨basename (lower n), n, 0, pre.length + x.1.hsize, pre.length + x.1.hsize, none⟩)
            ((layout (pre.length + (itemBytes x).length) t).map (·.1)) := by
        intro cur
        rw [rarsOf.eq_def]
        dsimp only
        rw [if_pos (by exact h71)]
        simp only [at_, hk]
      have hin : ((x :: t).map toEntry).takeWhile Entry.inVolume = [] := by
        rw [List.map_cons, List.takeWhile_cons, if_neg]
        simp [Entry.inVolume, toEntry, h71]
      rw [hstep, hvol, hin]
      refine ⟨?_, ?_⟩
      · simp only [Option.toList_none, List.nil_append, List.map_cons]
        rw [hstart]; rfl
      · intro r es h1 h2 h3
        rw [hstep, List.map_append, hstart]
        simp only [Option.toList_some, List.map_cons, List.map_nil, List.append_nil, hashPart, h3]
        rfl
    · have hvol : volumesOf ((x :: t).map toEntry) = volumesOf (t.map toEntry) := by
        rw [List.map_cons, volumesOf.eq_def]
        dsimp only
        split
        · rename_i n hk
          exact absurd (complete_type_rarFile hcx hk) h71
        · rfl
      rw [hvol]
      by_cases hs : x.1.btype = 0x69 ∨ x.1.btype = 0x6A ∨ x.1.btype = 0x6B
      · have hstep : ∀ cur, rarsOf lower cur (at_ x.1 pre.length :: (layout (pre.length + (itemBytes x).length) t).map (·.1)) =
            cur.toList ++ rarsOf lower none ((layout (pre.length + (itemBytes x).length) t).map (·.1)) := by
          intro cur
          rw [rarsOf.eq_def]
          dsimp only
          rw [if_neg (by exact h71), if_pos (by exact hs)]
        have hin : ((x :: t).map toEntry).takeWhile Entry.inVolume = [] := by
          rw [List.map_cons, List.takeWhile_cons, if_neg]
          simp only [Entry.inVolume, toEntry]
          rcases hs with h | h | h <;> simp [h]
        rw [hstep, hin]
        refine ⟨by simpa using ih1, ?_⟩
        intro r es h1 h2 h3
        rw [hstep, List.map_append, ih1]
        simp [hashPart, h3]
      · have hstep : ∀ cur, rarsOf lower cur (at_ x.1 pre.length :: (layout (pre.length + (itemBytes x).length) t).map (·.1)) =
            rarsOf lower (cur.map fun r => r.next (at_ x.1 pre.length)) ((layout (pre.length + (itemBytes x).length) t).map (·.1)) := by
          intro cur
          rw [rarsOf.eq_def]
          dsimp only
          rw [if_neg (by exact h71), if_neg (by exact hs)]
        have hin : ((x :: t).map toEntry).takeWhile Entry.inVolume = toEntry x :: (t.map toEntry).takeWhile Entry.inVolume := by
          rw [List.map_cons, List.takeWhile_cons, if_pos]
          simp only [Entry.inVolume, toEntry]
          simp only [not_or] at hs
          simp [hs.1, hs.2.1, hs.2.2, h71]
        rw [hin]
        refine ⟨by rw [hstep]; exact ih1, ?_⟩
        intro r es h1 h2 h3
        rw [hstep]
        have hx2 : x.2 = [] := dataOk_other hdx (fun h => hs (Or.inr (Or.inl h)))
        have hib : itemBytes x = x.1.raw := by unfold itemBytes; rw [hx2]; simp
        have heb : entriesBytes [toEntry x] = x.1.raw := by simp [entriesBytes, toEntry, hx2]
        have hcut : file.drop r.start = entriesBytes es ++ (x.1.raw ++ itemsBytes t) := by
          have hpre : pre.drop r.start = entriesBytes es := by
            have h2' := h2
            unfold readAt at h2'
            rw [hf, List.drop_append_of_le_length (by omega), List.take_append_of_le_length (by simp; omega)] at h2'
            rw [← h2']
            rw [List.take_of_length_le]
            simp
            omega
          rw [hf, List.drop_append_of_le_length (by omega), hpre, itemsBytes_cons, hib]
        have := ih2 (r.next (at_ x.1 pre.length)) (es ++ [toEntry x])
          (by
            show r.start + _ = _
            rw [entriesBytes_append, List.length_append, heb, hib]
            omega)
          (by
            show readAt file r.start _ = _
            unfold readAt
            rw [hcut, entriesBytes_append, heb, ← List.append_assoc]
            rw [List.take_append_of_le_length (by simp), List.take_of_length_le (by simp)])
          (by
            show readAt file r.start (pre.length + x.1.hsize - r.start) = _
            rw [hashed_concat, hhd]
            unfold readAt
            rw [hcut]
            have hl := hcx.len
            have e : pre.length + x.1.hsize - r.start = (entriesBytes es).length + x.1.hsize := by omega
            rw [e, List.take_append, Nat.add_sub_cancel_left, List.take_of_length_le (by omega),
              List.take_append_of_le_length (by omega)])
        rw [Option.map_some, this]
        simp [RarInfo.next]

/-- C15: the content hash of a well-formed SRR is the hash of its volumes (`hashed`), sorted by
lower case name without path, when these names are different. -/
theorem content_hash_is {lower upper : Str → Str} {hash : Bytes → Str} {file : Bytes} {c : List Entry}
    {sorted : List (Str × List Entry)}
    (hc : Contents file c) (hr : ∀ e ∈ c, e.Reportable)
    (hkeys : ((volumesOf c).map fun v => volumeKey lower v.1).Nodup)
    (hperm : sorted.Perm (volumesOf c))
    (hsorted : sorted.Pairwise fun v w => volumeKey lower v.1 ≤ volumeKey lower w.1) :
    contentHash lower upper hash file = .ok (hash (sorted.flatMap fun v => hashed v.2)) := by
  obtain ⟨l, hg, hf, hl, htr⟩ := items_of_contents hc
  have hcd := goodItems_complete hg
  have hcomp : ∀ x ∈ l, Complete x.1 := fun x hx => (hcd x hx).1
  have hrep : ∀ x ∈ l, (toEntry x).Reportable := fun x hx => hr _ (hl ▸ List.mem_map_of_mem hx)
  have hra : readAll file = .ok ((layout 0 l).map (·.1)) := by simp [readAll, htr]
  have hrars := (rars_of_layout (lower := lower) (file := file) l [] (by simp [hf]) hcomp hrep hg.data).1
  rw [List.length_nil, hl] at hrars
  have hkinds : ∀ b ∈ (layout 0 l).map (·.1), InfoOk b := by
    intro b hb
    obtain ⟨y, hy, rfl⟩ := List.mem_map.mp hb
    obtain ⟨x, hx, p, hxy⟩ := layout_mem_fst hy
    rw [hxy]
    obtain ⟨r1, r2, r3, r4⟩ := hrep x hx
    refine ⟨fun h => by have := complete_header_kind (hcomp x hx) h; exact this, ?_, fun h => (r1 h).1, r2, ?_, r3⟩
    · intro h
      obtain ⟨n, hn⟩ := dataOk_stored (hg.data x hx) h
      exact ⟨_, n, hn⟩
    · intro h
      obtain ⟨f, rr, e1, e2⟩ := r4 h
      refine ⟨f, rr, e1, ?_⟩
      intro rs ds hrr
      rw [← e2 rs ds hrr]
      exact complete_newSub_size (hcomp x hx) h e1
  obtain ⟨i, hi⟩ := infoLoop_ok hkinds lower file {}
  have hks : (rarsOf lower none ((layout 0 l).map (·.1))).map (·.key) = (volumesOf c).map fun v => volumeKey lower v.1 := by
    have := congrArg (List.map (·.1)) hrars
    rw [List.map_map, List.map_map] at this
    exact this
  have hir := info_loop _ {} i [] hi rfl (by rw [List.nil_append]; show (List.map _ (rarsOf lower none _)).Nodup; rw [hks]; exact hkeys)
  rw [List.nil_append] at hir
  have hir : i.rars = (rarsOf lower none ((layout 0 l).map (·.1))).map keyed := hir
  have hkn : (i.rars.map (·.1)).Nodup := by
    rw [hir, List.map_map]
    show (List.map (fun r : RarInfo => r.key) _).Nodup
    rw [hks]; exact hkeys
  have hsfv := infoSfv_rars lower upper i.sfvEntries i.rars hkn
  unfold contentHash info
  rw [hra, ok_bind, hi, ok_bind]
  generalize hq : infoSfv lower upper i.rars i.sfvEntries = q at *
  obtain ⟨rars, entries⟩ := q
  simp only [ok_bind, pure_eq_ok, Except.ok.injEq]
  congr 1
  -- what is hashed, and the keys
  let g : Str × RarInfo → Str × Bytes := fun x => (x.1, readAt file x.2.start (x.2.stop - x.2.start))
  let k : Str × List Entry → Str × Bytes := fun v => (volumeKey lower v.1, hashed v.2)
  have hgn : ∀ d : List (Str × RarInfo), (d.map noCrc).map g = d.map g := by
    intro d; rw [List.map_map]; rfl
  have hall : rars.map g = (volumesOf c).map k := by
    rw [← hgn, hsfv, hgn, hir, List.map_map, ← hrars]
    rfl
  have hnd : ((rars.map g).map (·.1)).Nodup := by
    rw [hall, List.map_map]; exact hkeys
  have key : (rars.mergeSort fun x y => decide (x.1 ≤ y.1)).map g = sorted.map k := by
    refine List.Perm.eq_of_pairwise (le := fun a b : Str × Bytes => a.1 ≤ b.1) ?_ ?_ ?_ ?_
    · intro a b ha hb h1 h2
      have hab : a.1 = b.1 := List.le_antisymm h1 h2
      have ha' : a ∈ rars.map g := ((List.mergeSort_perm _ _).map g).mem_iff.mp ha
      have hb' : b ∈ rars.map g := by
        rw [hall]; exact (hperm.map k).mem_iff.mp hb
      have : ∀ d : List (Str × Bytes), (d.map (·.1)).Nodup → a ∈ d → b ∈ d → a = b := by
        intro d
        induction d with
        | nil => simp
        | cons y d ihd =>
          intro hn ha hb
          simp only [List.map_cons, List.nodup_cons] at hn
          rcases List.mem_cons.mp ha with ha | ha
          · rcases List.mem_cons.mp hb with hb | hb
            · rw [ha, hb]
            · exact absurd (by rw [← ha, hab]; exact List.mem_map_of_mem (f := (·.1)) hb) hn.1
          · rcases List.mem_cons.mp hb with hb | hb
            · exact absurd (by rw [← hb, ← hab]; exact List.mem_map_of_mem (f := (·.1)) ha) hn.1
            · exact ihd hn.2 ha hb
      exact this _ hnd ha' hb'
    · have := List.pairwise_mergeSort (le := fun x y : Str × RarInfo => decide (x.1 ≤ y.1))
        (by
          intro a b c h1 h2
          simp only [decide_eq_true_eq] at h1 h2 ⊢
          exact List.le_trans h1 h2)
        (by
          intro a b
          simp only [Bool.or_eq_true, decide_eq_true_eq]
          exact List.le_total _ _) rars
      rw [List.pairwise_map]
      exact this.imp (by intro a b h; simpa using h)
    · rw [List.pairwise_map]
      exact hsorted
    · refine ((List.mergeSort_perm _ _).map g).trans ?_
      rw [hall]
      exact (hperm.map k).symm
  have := congrArg (List.flatMap (fun y : Str × Bytes => y.2)) key
  rw [List.flatMap_map, List.flatMap_map] at this
  exact this

/-- C15: two SRRs with the same volumes, in any order and whatever else they contain, have the
same content hash. -/
theorem content_hash_same {lower upper : Str → Str} {hash : Bytes → Str} {file file' : Bytes} {c c' : List Entry}
    (hc : Contents file c) (hr : ∀ e ∈ c, e.Reportable) (hc' : Contents file' c') (hr' : ∀ e ∈ c', e.Reportable)
    (hkeys : ((volumesOf c).map fun v => volumeKey lower v.1).Nodup)
    (hsame : (volumesOf c').Perm (volumesOf c)) :
    contentHash lower upper hash file' = contentHash lower upper hash file := by
  let le : Str × List Entry → Str × List Entry → Bool := fun v w => decide (volumeKey lower v.1 ≤ volumeKey lower w.1)
  have hp := List.mergeSort_perm (volumesOf c) le
  have hs : ((volumesOf c).mergeSort le).Pairwise fun v w => volumeKey lower v.1 ≤ volumeKey lower w.1 := by
    have := List.pairwise_mergeSort (le := le)
      (by
        intro a b c h1 h2
        simp only [le, decide_eq_true_eq] at h1 h2 ⊢
        exact List.le_trans h1 h2)
      (by
        intro a b
        simp only [le, Bool.or_eq_true, decide_eq_true_eq]
        exact List.le_total _ _) (volumesOf c)
    exact this.imp (by intro a b h; simpa [le] using h)
  rw [content_hash_is hc hr hkeys hp hs]
  exact content_hash_is hc' hr' ((hsame.map fun v => volumeKey lower v.1).nodup_iff.mpr hkeys) (hp.trans hsame.symm) hs

theorem volumesOf_append (s t : List Entry) (h : ∀ e ∈ s, e.btype ≠ 0x71) (hk : ∀ e ∈ s, ∀ n, e.kind = .rarFile n → e.btype = 0x71) :
    volumesOf (s ++ t) = volumesOf t := by
  induction s with
  | nil => rfl
  | cons e s ih =>
    rw [List.cons_append, volumesOf.eq_def]
    dsimp only
    split
    · rename_i n hn
      exact absurd (hk e (by simp) n hn) (h e (by simp))
    · exact ih (fun e he => h e (List.mem_cons_of_mem _ he)) (fun e he => hk e (List.mem_cons_of_mem _ he))


theorem contents_rarFile {file : Bytes} {c : List Entry} (hc : Contents file c) :
    ∀ e ∈ c, ∀ n, e.kind = .rarFile n → e.btype = 0x71 := by
  obtain ⟨l, hg, hf, hl, htr⟩ := items_of_contents hc
  intro e he n hk
  rw [← hl] at he
  obtain ⟨x, hx, rfl⟩ := List.mem_map.mp he
  exact complete_type_rarFile (goodItems_complete hg x hx).1 hk

theorem beforeRar_type (c : List Entry) : ∀ e ∈ beforeRar c, e.btype ≠ 0x71 := by
  intro e he
  have : ∀ (c : List Entry), e ∈ c.takeWhile (fun e => e.btype ≠ 0x71) → e.btype ≠ 0x71 := by
    intro c
    induction c with
    | nil => simp
    | cons x t ih =>
      rw [List.takeWhile_cons]
      split
      · rename_i hx
        intro h
        rcases List.mem_cons.mp h with rfl | h
        · simpa using hx
        · exact ih h
      · simp
  exact this c he

theorem volumesOf_fromRar {file : Bytes} {c : List Entry} (hc : Contents file c) : volumesOf (fromRar c) = volumesOf c := by
  have h := List.takeWhile_append_dropWhile (p := fun e : Entry => decide (e.btype ≠ 0x71)) (l := c)
  have hk := contents_rarFile hc
  have := volumesOf_append (beforeRar c) (fromRar c) (beforeRar_type c) (fun e he => hk e (by
    rw [← h]; exact List.mem_append_left _ he))
  rw [← this]
  congr 1

theorem newEntries_stored {news : List NewFile} {adds : List Entry} (h : newEntries news = .ok adds) :
    ∀ e ∈ adds, e.btype = 0x6A ∧ ∃ s n, e.kind = .stored s n := by
  induction news generalizing adds with
  | nil => simp [newEntries] at h; subst h; simp
  | cons f t ih =>
    simp only [newEntries, newEntry, bind_eq_ok, pure_eq_ok, Except.ok.injEq] at h
    obtain ⟨e, ⟨d, _, raw, _, he⟩, r, hr, h⟩ := h
    subst h; subst he
    intro e he
    rcases List.mem_cons.mp he with rfl | he
    · exact ⟨rfl, _, _, rfl⟩
    · exact ih hr e he

theorem stored_reportable {e : Entry} (h : e.btype = 0x6A) : e.Reportable := by
  refine ⟨?_, ?_, ?_, ?_⟩ <;> (intro h'; omega)

/-- C15: adding stored files does not change the content hash. -/
theorem content_hash_add {lower upper : Str → Str} {hash : Bytes → Str} {srr tmp : Path} {fs : FS} {file : Bytes}
    {c adds : List Entry} {storeFiles : List Str} {news : List NewFile}
    (hne : srr ≠ tmp) (ht : fs tmp = none) (hs : fs srr = some file) (hc : Contents file c)
    (hadds : newEntries news = .ok adds)
    (hdup : ∀ e ∈ c, ∀ name, e.isStored name → ∃ p, osFileNameSrr name = .ok p ∧ p ∉ storeFiles)
    (hr : ∀ e ∈ c, e.Reportable) (hkeys : ((volumesOf c).map fun v => volumeKey lower v.1).Nodup) :
    ∃ new, run (addProg srr tmp file storeFiles news) fs [] = (fs.set srr (some new), .ok ()) ∧
      contentHash lower upper hash new = contentHash lower upper hash file := by
  obtain ⟨new, h1, h2, _, _⟩ := add_inserts hne ht hs hc hadds hdup
  have hst := newEntries_stored hadds
  have hsplit := List.takeWhile_append_dropWhile (p := fun e : Entry => decide (e.btype ≠ 0x71)) (l := c)
  have hmb : ∀ e ∈ beforeRar c, e ∈ c := fun e he => by rw [← hsplit]; exact List.mem_append_left _ he
  have hmf : ∀ e ∈ fromRar c, e ∈ c := fun e he => by rw [← hsplit]; exact List.mem_append_right _ he
  refine ⟨new, h1, content_hash_same hc hr h2 ?_ hkeys ?_⟩
  · intro e he
    simp only [List.mem_append] at he
    rcases he with (he | he) | he
    · exact hr e (hmb e he)
    · exact stored_reportable (hst e he).1
    · exact hr e (hmf e he)
  · rw [volumesOf_append (beforeRar c ++ adds) (fromRar c), volumesOf_fromRar hc]
    · intro e he
      rcases List.mem_append.mp he with he | he
      · exact beforeRar_type c e he
      · have := (hst e he).1
        omega
    · intro e he n hn
      rcases List.mem_append.mp he with he | he
      · exact contents_rarFile hc e (hmb e he) n hn
      · obtain ⟨_, s, m, hk⟩ := hst e he
        rw [hk] at hn
        simp at hn

theorem takeWhile_removed {names : List Str} (t : List Entry)
    (hout : ∀ e ∈ t, e.isOneOf names = true → e.inVolume = false)
    (hnext : ∀ t1 e e' t2, t = t1 ++ e :: e' :: t2 → e.isOneOf names = true → e'.inVolume = false) :
    (t.filter fun e => !e.isOneOf names).takeWhile Entry.inVolume = t.takeWhile Entry.inVolume := by
  induction t with
  | nil => rfl
  | cons x s ih =>
    have ih := ih (fun e he => hout e (List.mem_cons_of_mem _ he)) (fun t1 e e' t2 h => hnext (x :: t1) e e' t2 (by rw [h]; rfl))
    by_cases hx : x.isOneOf names = true
    · rw [List.filter_cons_of_neg (by simp [hx]), ih, List.takeWhile_cons_of_neg (by simp [hout x (by simp) hx])]
      cases s with
      | nil => rfl
      | cons y s => rw [List.takeWhile_cons_of_neg (by simp [hnext [] x y s rfl hx])]
    · rw [List.filter_cons_of_pos (by simpa using hx), List.takeWhile_cons, List.takeWhile_cons, ih]

theorem volumesOf_removed {names : List Str} (c : List Entry)
    (hout : ∀ e ∈ c, e.isOneOf names = true → e.inVolume = false ∧ ∀ n, e.kind ≠ .rarFile n)
    (hnext : ∀ c1 e e' c2, c = c1 ++ e :: e' :: c2 → e.isOneOf names = true → e'.inVolume = false) :
    volumesOf (c.filter fun e => !e.isOneOf names) = volumesOf c := by
  induction c with
  | nil => rfl
  | cons x s ih =>
    have hout' := fun e he => hout e (List.mem_cons_of_mem x he)
    have hnext' : ∀ c1 e e' c2, s = c1 ++ e :: e' :: c2 → e.isOneOf names = true → e'.inVolume = false :=
      fun c1 e e' c2 h => hnext (x :: c1) e e' c2 (by rw [h]; rfl)
    have ih := ih hout' hnext'
    by_cases hx : x.isOneOf names = true
    · rw [List.filter_cons_of_neg (by simp [hx]), ih, volumesOf.eq_def (x :: s)]
      dsimp only
      split
      · rename_i n hn; exact absurd hn ((hout x (by simp) hx).2 n)
      · rfl
    · rw [List.filter_cons_of_pos (by simpa using hx), volumesOf.eq_def, volumesOf.eq_def (x :: s)]
      dsimp only
      rw [ih, takeWhile_removed s (fun e he h => (hout' e he h).1) hnext']

/-- C15: removing stored files does not change the content hash, when none of them is in the
middle of a volume. -/
theorem content_hash_remove {lower upper : Str → Str} {hash : Bytes → Str} {srr tmp : Path} {fs : FS} {file : Bytes}
    {c : List Entry} {names : List Str}
    (hne : srr ≠ tmp) (ht : fs tmp = none) (hs : fs srr = some file) (hc : Contents file c)
    (hmid : ∀ c1 e e' c2, c = c1 ++ e :: e' :: c2 → e.btype = 0x6A → e'.inVolume = false)
    (hr : ∀ e ∈ c, e.Reportable) (hkeys : ((volumesOf c).map fun v => volumeKey lower v.1).Nodup) :
    ∃ new, run (removeProg srr tmp file names) fs [] = (fs.set srr (some new), .ok ()) ∧
      (20 ≤ new.length → contentHash lower upper hash new = contentHash lower upper hash file) := by
  obtain ⟨new, h1, _, h3⟩ := remove_drops (names := names) hne ht hs hc
  have hone : ∀ e : Entry, e.isOneOf names = true → e.btype = 0x6A ∧ ∀ n, e.kind ≠ .rarFile n := by
    intro e he
    unfold Entry.isOneOf at he
    split at he
    · rename_i s n hk
      simp only [Bool.and_eq_true, beq_iff_eq] at he
      exact ⟨he.1, fun m hm => by rw [hk] at hm; simp at hm⟩
    · simp at he
  refine ⟨new, h1, fun hl => content_hash_same hc hr (h3 hl) ?_ hkeys ?_⟩
  · intro e he
    exact hr e (List.mem_filter.mp he).1
  · rw [volumesOf_removed]
    · intro e _ h
      obtain ⟨h6, hk⟩ := hone e h
      exact ⟨by simp [Entry.inVolume, h6], hk⟩
    · intro c1 e e' c2 h he
      exact hmid c1 e e' c2 h (hone e he).1

theorem takeWhile_mid {p : Entry → Bool} {e e' : Entry} (h : p e = false) (h' : p e' = false) (c1 c2 : List Entry) :
    (c1 ++ e :: c2).takeWhile p = (c1 ++ e' :: c2).takeWhile p := by
  induction c1 with
  | nil => simp [h, h']
  | cons x t ih => simp only [List.cons_append, List.takeWhile_cons, ih]

theorem volumesOf_mid {e e' : Entry} (h : e.inVolume = false) (h' : e'.inVolume = false)
    (hk : ∀ n, e.kind ≠ .rarFile n) (hk' : ∀ n, e'.kind ≠ .rarFile n) (c1 c2 : List Entry) :
    volumesOf (c1 ++ e :: c2) = volumesOf (c1 ++ e' :: c2) := by
  induction c1 with
  | nil =>
    rw [List.nil_append, List.nil_append, volumesOf.eq_def, volumesOf.eq_def (e' :: c2)]
    dsimp only
    split
    · rename_i n hn; exact absurd hn (hk n)
    · first | rfl | (split <;> first | rfl | (rename_i n hn; exact absurd hn (hk' n)))
  | cons x t ih =>
    rw [List.cons_append, List.cons_append, volumesOf.eq_def, volumesOf.eq_def (x :: (t ++ e' :: c2))]
    dsimp only
    rw [takeWhile_mid h h', ih]

/-- C15: renaming a stored file does not change the content hash. -/
theorem content_hash_rename {lower upper : Str → Str} {hash : Bytes → Str} {srr tmp : Path} {fs : FS} {file raw : Bytes}
    {c1 c2 : List Entry} {e : Entry} {name newName : Str} (hne : srr ≠ tmp) (ht : fs tmp = none) (hs : fs srr = some file)
    (hc : Contents file (c1 ++ e :: c2)) (he : e.isStored name) (hfirst : ∀ e' ∈ c1, ¬ e'.isStored name)
    (hnew : mkStored newName e.data.length = .ok raw)
    (hr : ∀ e' ∈ c1 ++ e :: c2, e'.Reportable)
    (hkeys : ((volumesOf (c1 ++ e :: c2)).map fun v => volumeKey lower v.1).Nodup) :
    ∃ new, run (renameProg srr tmp file name newName) fs [] = (fs.set srr (some new), .ok ()) ∧
      contentHash lower upper hash new = contentHash lower upper hash file := by
  obtain ⟨new, h1, h2⟩ := rename_changes_name hne ht hs hc he hfirst hnew
  refine ⟨new, h1, content_hash_same hc hr h2 ?_ hkeys ?_⟩
  · intro x hx
    simp only [List.mem_append, List.mem_cons] at hx
    rcases hx with hx | rfl | hx
    · exact hr x (by simp [hx])
    · exact stored_reportable rfl
    · exact hr x (by simp [hx])
  · obtain ⟨h6, size, hk⟩ := he
    rw [volumesOf_mid (e := e) (e' := ⟨0x6A, .stored e.data.length newName, raw, e.data⟩) (by simp [Entry.inVolume, h6])
      (by simp [Entry.inVolume]) (by intro n hn; rw [hk] at hn; simp at hn) (by intro n hn; simp at hn)]


/-! An SRR with a stored file and two volumes, `B.rar` (marker, archive end and two bytes of
padding) and `x/a.r` (marker). -/

/-- Bytes of a RAR-file block with a name of five characters. -/
def exRarFile (name : Bytes) : Bytes := [0x71, 0x71, 0x71, 1, 0, 9 + UInt8.ofNat name.length, 0, UInt8.ofNat name.length, 0] ++ name

/-- The marker block. -/
def exMarker : Bytes := [0x52, 0x61, 0x72, 0x21, 0x1A, 0x07, 0x00]

/-- The entries. -/
def exHashEntries : List Entry :=
  [⟨0x69, .srrHeader [], [0x69, 0x69, 0x69, 0, 0, 7, 0], []⟩,
   ⟨0x6A, .stored 3 (str "a"), [0x6A, 0x6A, 0x6A, 0, 0x80, 14, 0, 3, 0, 0, 0, 1, 0, 0x61], [1, 2, 3]⟩,
   ⟨0x71, .rarFile (str "B.rar"), exRarFile [0x42, 0x2E, 0x72, 0x61, 0x72], []⟩,
   ⟨0x72, .plain, exMarker, []⟩,
   ⟨0x7B, .plain, [0, 0, 0x7B, 0, 0, 7, 0], []⟩,
   ⟨0x6C, .padding 2, [0x6C, 0x6C, 0x6C, 0, 0x80, 11, 0, 2, 0, 0, 0, 8, 9], []⟩,
   ⟨0x71, .rarFile (str "x/a.r"), exRarFile [0x78, 0x2F, 0x61, 0x2E, 0x72], []⟩,
   ⟨0x72, .plain, exMarker, []⟩]

/-- Lower case for ASCII. -/
def exLower (s : Str) : Str := s.map fun c => if 0x41 ≤ c ∧ c ≤ 0x5A then c + 0x20 else c

/-- Well-formedness, computed. -/
def contentsB (file : Bytes) (c : List Entry) : Bool :=
  match openReader file, readTrace file with
  | .ok .srr, .ok tr =>
    decide (c = tr.map (entryOf file)) && tr.all (fun x => decide (x.1.raw.length = x.1.hsize + keptLen x.1)) &&
      c.all fun e => if e.btype = 0x6A then
        (match e.kind with | .stored s _ => decide (s = e.data.length) | _ => false) else decide (e.data = [])
  | _, _ => false

theorem contents_of_check {file : Bytes} {c : List Entry} (h : contentsB file c = true) : Contents file c := by
  unfold contentsB at h
  split at h
  · rename_i tr h1 h2
    simp only [Bool.and_eq_true, decide_eq_true_eq, List.all_eq_true] at h
    refine ⟨h1, tr, h2, h.1.1, h.1.2, ?_⟩
    intro e he
    have := h.2 e he
    split
    · rename_i h6
      rw [if_pos h6] at this
      split at this
      · rename_i s n hk
        rw [hk]
        simp only [decide_eq_true_eq] at this
        exact ⟨n, by rw [this]⟩
      · simp at this
    · rename_i h6
      rw [if_neg h6] at this
      simpa using this
  · simp at h

theorem exHash_contents : Contents (entriesBytes exHashEntries) exHashEntries := contents_of_check (by decide +kernel)

theorem exHash_reportable : ∀ e ∈ exHashEntries, e.Reportable := by
  intro e he
  simp only [exHashEntries, List.mem_cons, List.not_mem_nil, or_false] at he
  rcases he with rfl | rfl | rfl | rfl | rfl | rfl | rfl | rfl
  all_goals
    refine ⟨fun h => ?_, fun h => absurd h (by decide), fun h => absurd h (by decide), fun h => absurd h (by decide)⟩
    first
      | exact absurd h (by decide)
      | exact ⟨⟨_, rfl⟩, by decide⟩

/-- The content hash: the marker of `x/a.r`, then the blocks of `B.rar` without the two bytes
of padding. -/
example (hash : Bytes → Str) (upper : Str → Str) : contentHash exLower upper hash (entriesBytes exHashEntries) =
    .ok (hash (exMarker ++ (exMarker ++ [0, 0, 0x7B, 0, 0, 7, 0] ++ [0x6C, 0x6C, 0x6C, 0, 0x80, 11, 0, 2, 0, 0, 0]))) :=
  content_hash_is exHash_contents exHash_reportable (by decide)
    (sorted := [(str "x/a.r", [⟨0x72, .plain, exMarker, []⟩]),
      (str "B.rar", [⟨0x72, .plain, exMarker, []⟩, ⟨0x7B, .plain, [0, 0, 0x7B, 0, 0, 7, 0], []⟩,
        ⟨0x6C, .padding 2, [0x6C, 0x6C, 0x6C, 0, 0x80, 11, 0, 2, 0, 0, 0, 8, 9], []⟩])])
    (by decide +kernel) (by simp only [List.pairwise_cons, List.mem_cons, List.not_mem_nil, or_false, forall_eq]; exact ⟨by decide, fun _ h => h.elim, List.Pairwise.nil⟩)

/-- Two volumes with the same name in different folders. -/
def exSameEntries (first second : List Entry) : List Entry :=
  [⟨0x69, .srrHeader [], [0x69, 0x69, 0x69, 0, 0, 7, 0], []⟩,
   ⟨0x71, .rarFile (str "x/a.r"), exRarFile [0x78, 0x2F, 0x61, 0x2E, 0x72], []⟩] ++ first ++
  [⟨0x71, .rarFile (str "y/a.r"), exRarFile [0x79, 0x2F, 0x61, 0x2E, 0x72], []⟩] ++ second

/-- C15 does not hold for volumes with the same name in different folders: only the last one is
hashed, so SRRs of different volumes have the same content hash. -/
theorem content_hash_ignores_volume (hash : Bytes → Str) :
    contentHash exLower id hash (entriesBytes (exSameEntries [⟨0x72, .plain, exMarker, []⟩] [⟨0x72, .plain, exMarker, []⟩])) =
      .ok (hash exMarker) ∧
    contentHash exLower id hash (entriesBytes (exSameEntries [⟨0x72, .plain, exMarker, []⟩, ⟨0x7B, .plain, [0, 0, 0x7B, 0, 0, 7, 0], []⟩]
      [⟨0x72, .plain, exMarker, []⟩])) = .ok (hash exMarker) := by
  constructor
  · unfold contentHash
    have : info exLower id (entriesBytes (exSameEntries [⟨0x72, .plain, exMarker, []⟩] [⟨0x72, .plain, exMarker, []⟩])) =
        .ok { rars := [(str "a.r", ⟨str "a.r", str "y/a.r", 7, 42, 49, none⟩)], cur := some ⟨str "a.r", str "y/a.r", 7, 42, 49, none⟩ } := by
      decide +kernel
    rw [this]
    simp only [ok_bind, List.mergeSort_singleton, pure_eq_ok]
    congr 2
  · unfold contentHash
    have : info exLower id (entriesBytes (exSameEntries [⟨0x72, .plain, exMarker, []⟩, ⟨0x7B, .plain, [0, 0, 0x7B, 0, 0, 7, 0], []⟩]
        [⟨0x72, .plain, exMarker, []⟩])) =
        .ok { rars := [(str "a.r", ⟨str "a.r", str "y/a.r", 7, 49, 56, none⟩)], cur := some ⟨str "a.r", str "y/a.r", 7, 49, 56, none⟩ } := by
      decide +kernel
    rw [this]
    simp only [ok_bind, List.mergeSort_singleton, pure_eq_ok]
    congr 2

/-- A volume with a stored file in its middle, or without. -/
def exInsideEntries (middle : List Entry) : List Entry :=
  [⟨0x69, .srrHeader [], [0x69, 0x69, 0x69, 0, 0, 7, 0], []⟩,
   ⟨0x71, .rarFile (str "x/a.r"), exRarFile [0x78, 0x2F, 0x61, 0x2E, 0x72], []⟩,
   ⟨0x72, .plain, exMarker, []⟩] ++ middle ++ [⟨0x7B, .plain, [0, 0, 0x7B, 0, 0, 7, 0], []⟩]

/-- The stored file. -/
def exInside : Entry := ⟨0x6A, .stored 3 (str "a"), [0x6A, 0x6A, 0x6A, 0, 0x80, 14, 0, 3, 0, 0, 0, 1, 0, 0x61], [1, 2, 3]⟩

/-- C15 does not hold for a stored file in the middle of a volume: removing it changes the
content hash, because what comes behind it was not hashed. -/
theorem content_hash_remove_inside (hash : Bytes → Str) :
    Contents (entriesBytes (exInsideEntries [exInside])) (exInsideEntries [exInside]) ∧
    (exInsideEntries [exInside]).filter (fun e => !e.isOneOf [str "a"]) = exInsideEntries [] ∧
    contentHash exLower id hash (entriesBytes (exInsideEntries [exInside])) = .ok (hash exMarker) ∧
    contentHash exLower id hash (entriesBytes (exInsideEntries [])) = .ok (hash (exMarker ++ [0, 0, 0x7B, 0, 0, 7, 0])) := by
  refine ⟨contents_of_check (by decide +kernel), by decide +kernel, ?_, ?_⟩
  · unfold contentHash
    have : info exLower id (entriesBytes (exInsideEntries [exInside])) =
        .ok { stored := [(str "a", 3)], rars := [(str "a.r", ⟨str "a.r", str "x/a.r", 7, 21, 28, none⟩)], cur := none } := by
      decide +kernel
    rw [this]
    simp only [ok_bind, List.mergeSort_singleton, pure_eq_ok]
    congr 2
  · unfold contentHash
    have : info exLower id (entriesBytes (exInsideEntries [])) =
        .ok { rars := [(str "a.r", ⟨str "a.r", str "x/a.r", 14, 21, 35, none⟩)], cur := some ⟨str "a.r", str "x/a.r", 14, 21, 35, none⟩ } := by
      decide +kernel
    rw [this]
    simp only [ok_bind, List.mergeSort_singleton, pure_eq_ok]
    congr 2

theorem mid_of_check (c : List Entry) (h : (c.zip c.tail).all (fun p => p.1.btype != 0x6A || !p.2.inVolume) = true) :
    ∀ c1 e e' c2, c = c1 ++ e :: e' :: c2 → e.btype = 0x6A → e'.inVolume = false := by
  intro c1
  induction c1 generalizing c with
  | nil =>
    rintro e e' c2 rfl hb
    simp only [List.nil_append, List.tail_cons, List.zip_cons_cons, List.all_cons, Bool.and_eq_true, Bool.or_eq_true] at h
    rcases h.1 with h | h
    · simp [hb] at h
    · simpa using h
  | cons x t ih =>
    rintro e e' c2 rfl hb
    refine ih (t ++ e :: e' :: c2) ?_ e e' c2 rfl hb
    cases t with
    | nil => simp only [List.nil_append, List.cons_append, List.tail_cons, List.zip_cons_cons, List.all_cons, Bool.and_eq_true] at h ⊢; exact h.2
    | cons y t => simp only [List.cons_append, List.tail_cons, List.zip_cons_cons, List.all_cons, Bool.and_eq_true] at h ⊢; exact h.2

/-- Removing a stored file. -/
example (hash : Bytes → Str) : ∃ new, run (removeProg (str "a.srr") (str "t") (entriesBytes exHashEntries) [str "a"])
      (FS.set (fun _ => none) (str "a.srr") (some (entriesBytes exHashEntries))) [] =
        ((FS.set (fun _ => none) (str "a.srr") (some (entriesBytes exHashEntries))).set (str "a.srr") (some new), .ok ()) ∧
      (20 ≤ new.length → contentHash exLower id hash new = contentHash exLower id hash (entriesBytes exHashEntries)) :=
  content_hash_remove (by decide) (by decide) (by decide +kernel) exHash_contents (mid_of_check _ (by decide +kernel)) exHash_reportable (by decide)

end Rescene.Props
