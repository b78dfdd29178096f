import Verif.Props.Reconstruct
import Verif.Props.Edit
import Verif.Props.InfoContents
import Verif.Props.CreateFrom
import Verif.Lemmas.AutoSrr
import Verif.Spec.AutoSrr
/-
C82: the contents of the SRR that `pyrescene` makes.
-/
namespace Rescene.Props
open Rescene Spec

/-! ### The entries of a written SRR -/

/-- The type of the block for a piece. -/
def Piece.btype : Piece → Nat
  | .stored _ _ => 0x6A
  | .rarFile _ => 0x71
  | .oso _ _ _ => 0x6B
  | .padding _ => 0x6C
  | .rar b => b.btype

/-- What a piece and its entry have in common. -/
def Piece.row (p : Piece) : Nat × Kind × Res Bytes × Bytes := (p.btype, p.kind, p.raw, p.data)
def entryRow (e : Entry) : Nat × Kind × Res Bytes × Bytes := (e.btype, e.kind, .ok e.raw, e.data)

theorem same_btype {b c : Block} (hb : Complete b) (hc : Complete c) (h : b.raw = c.raw) : b.btype = c.btype := by
  rw [complete_unique hb hc h]; rfl

theorem items_entries (items : List Item) : ∀ (ps : List Piece) (rr : Option Bool), Readable rr items →
    items.map (fun x => (x.1.kind, x.2)) = ps.map (fun p => (p.kind, p.data)) →
    items.map (fun x => Except.ok x.1.raw) = ps.map Piece.raw →
    RarPiecesIn ps →
    (items.map toEntry).map entryRow = ps.map Piece.row ∧ ∀ x ∈ items, DataOk (toEntry x) := by
  induction items with
  | nil =>
    intro ps rr _ h _ _
    cases ps with
    | nil => exact ⟨rfl, by simp⟩
    | cons _ _ => simp at h
  | cons x t ih =>
    intro ps rr hr h1 h2 h3
    cases ps with
    | nil => simp at h1
    | cons p ps =>
      simp only [List.map_cons, List.cons.injEq, Prod.mk.injEq] at h1 h2
      obtain ⟨⟨hk, hd⟩, h1⟩ := h1
      obtain ⟨hraw, h2⟩ := h2
      obtain ⟨r1, r2, r3, r4⟩ := hr
      obtain ⟨i1, i2⟩ := ih ps _ r4 h1 h2 (fun b hb => h3 b (List.mem_cons_of_mem _ hb))
      have key : x.1.btype = p.btype ∧ DataOk (toEntry x) := by
        cases p with
        | stored name data =>
          have hb : x.1.btype = 0x6A := same_btype r1 (complete_stored hraw.symm).1 rfl
          refine ⟨hb, ?_⟩
          unfold DataOk toEntry
          rw [if_pos hb]
          exact ⟨name, by dsimp only; rw [hk, hd]; rfl⟩
        | rarFile name =>
          have hb : x.1.btype = 0x71 := same_btype r1 (complete_rarFile hraw.symm).1 rfl
          refine ⟨hb, ?_⟩
          unfold DataOk toEntry
          rw [if_neg (by dsimp only; rw [hb]; decide)]
          exact hd
        | oso size hash name =>
          have hb : x.1.btype = 0x6B := same_btype r1 (complete_oso hraw.symm).1 rfl
          refine ⟨hb, ?_⟩
          unfold DataOk toEntry
          rw [if_neg (by dsimp only; rw [hb]; decide)]
          exact hd
        | padding pd =>
          have hb : x.1.btype = 0x6C := same_btype r1 (complete_padding hraw.symm).1 rfl
          refine ⟨hb, ?_⟩
          unfold DataOk toEntry
          rw [if_neg (by dsimp only; rw [hb]; decide)]
          exact hd
        | rar c =>
          obtain ⟨c1, c2⟩ := h3 c (by simp)
          have hb : x.1.btype = c.btype := same_btype r1 c1 (Except.ok.inj hraw)
          refine ⟨hb, ?_⟩
          unfold DataOk toEntry
          rw [if_neg (by dsimp only; rw [hb]; omega)]
          exact hd
      refine ⟨?_, fun y hy => ?_⟩
      · simp only [List.map_cons, List.cons.injEq]
        refine ⟨?_, i1⟩
        unfold entryRow Piece.row toEntry
        rw [← key.1, ← hk, ← hraw, ← hd]
      · rcases List.mem_cons.mp hy with rfl | hy
        · exact key.2
        · exact i2 y hy

/-- The entries of a written SRR are those that were written. -/
theorem written_contents {app : Str} {ps : List Piece} {bytes : Bytes}
    (hw : writeSrr app ps = .ok bytes) (hlen : 20 ≤ bytes.length) (hrar : RarPiecesOk ps) :
    ∃ h es, mkSrrHeader app = .ok h ∧ Contents bytes (⟨0x69, .srrHeader app, h, []⟩ :: es) ∧ es.map entryRow = ps.map Piece.row := by
  simp only [writeSrr, bind_eq_ok] at hw
  obtain ⟨h, hh, rest, hrest, hw⟩ := hw
  simp only [pure_eq_ok, Except.ok.injEq] at hw
  obtain ⟨items, i1, i2, i3, i4, i5⟩ := items_of_pieces ps rest none hrest (Or.inr ⟨rfl, hrar⟩)
  obtain ⟨hc, hs⟩ := complete_header hh
  have hread : Readable none ((headerBlock h app, []) :: items) := by
    refine ⟨hc, by rw [hs]; rfl, ?_, ?_⟩
    · intro _ hr
      rw [isRecovery_of_ne (by simp [headerBlock]) (by simp [headerBlock])] at hr; simp at hr
    · have : nextRR none (headerBlock h app) = none := by simp [nextRR, headerBlock]
      rw [this]; exact i1
  have hbytes : itemsBytes ((headerBlock h app, []) :: items) = bytes := by
    simp [itemBytes, headerBlock, i2, hw]
  obtain ⟨j1, j2⟩ := items_entries items ps none i1 i3 i4 (rarPiecesOk_in hrar)
  have hg : GoodItems ((headerBlock h app, []) :: items) := by
    refine ⟨hread, ?_, ⟨_, _, rfl, rfl⟩, by rw [hbytes]; exact hlen⟩
    intro x hx
    rcases List.mem_cons.mp hx with rfl | hx
    · unfold DataOk toEntry headerBlock
      rw [if_neg (by show ¬ (0x69 : Nat) = 0x6A; decide)]
    · exact j2 x hx
  have := contents_of_items hg
  rw [hbytes] at this
  exact ⟨h, items.map toEntry, hh, this, j1⟩

theorem entries_write {es : List Entry} : ∀ {ps : List Piece}, es.map entryRow = ps.map Piece.row → writePieces ps = .ok (entriesBytes es) := by
  induction es with
  | nil =>
    intro ps h
    cases ps with
    | nil => rfl
    | cons _ _ => simp at h
  | cons e es ih =>
    intro ps h
    cases ps with
    | nil => simp at h
    | cons p ps =>
      simp only [List.map_cons, List.cons.injEq] at h
      obtain ⟨h1, h2⟩ := h
      unfold entryRow Piece.row at h1
      simp only [Prod.mk.injEq] at h1
      obtain ⟨_, _, h3, h4⟩ := h1
      rw [writePieces, ← h3, ok_bind, ih h2, ok_bind, ← h4, entriesBytes_cons]
      rfl

/-! ### The edits -/

/-- What is left when stored files are removed. -/
theorem left_contents {file : Bytes} {c : List Entry} (names : List Str) (hc : Contents file c) :
    leftBytes file names = .ok (entriesBytes (c.filter fun e => !e.isOneOf names)) ∧
    (20 ≤ (entriesBytes (c.filter fun e => !e.isOneOf names)).length →
      Contents (entriesBytes (c.filter fun e => !e.isOneOf names)) (c.filter fun e => !e.isOneOf names)) := by
  obtain ⟨new, h1, h2, h3⟩ := remove_drops (srr := [1]) (tmp := [2]) (fs := FS.set (fun _ => none) [1] (some file)) (names := names) (by simp)
    (by rw [FS.set_ne _ _ (by simp)]) (FS.set_eq _ _ _) hc
  obtain ⟨w, g1, g2⟩ := run_remove_sound (by simp) h1
  have : w = new := by
    have := congrFun g2 [1]
    rw [FS.set_eq, FS.set_eq] at this
    exact (Option.some.inj this).symm
  rw [this] at g1
  rw [← h2]
  exact ⟨g1, h3⟩

/-- What there is when files are added. -/
theorem added_contents {file : Bytes} {c : List Entry} (news : List NewFile) (hc : Contents file c) :
    ((readSrr file).bind fun blocks => chunksVal (addChunks file news false blocks)) =
      (newEntries news).map fun adds => entriesBytes (beforeRar c) ++ entriesBytes adds ++ entriesBytes (fromRar c) := by
  obtain ⟨l, hg, hf, hl, htr⟩ := items_of_contents hc
  rw [readSrr_layout hc.1 htr]
  have hcd := goodItems_complete hg
  cases hn : newEntries news with
  | error e =>
    have hch := addChunks_error (pre := []) hcd hn
    simp only [List.nil_append, List.length_nil] at hch
    rw [hf] at hch
    exact hch
  | ok adds =>
    obtain ⟨items, hi, hie⟩ := newItems_entries hn
    have hch := addChunks_false (pre := []) hcd hi
    simp only [List.nil_append, List.length_nil] at hch
    rw [hf] at hch
    show chunksVal _ = _
    rw [hch, ← entriesBytes_map, List.map_append, List.map_append, takeWhile_toEntry, dropWhile_toEntry, hie, hl,
      entriesBytes_append, entriesBytes_append]
    rfl

/-- All the names of stored files are reported. -/
theorem info_names {lower upper : Str → Str} {data : Bytes} {i : Info} {c : List Entry} (hc : Contents data c) (h : info lower upper data = .ok i) :
    ∀ e ∈ c, ∀ size name, e.btype = 0x6A → e.kind = .stored size name → name ∈ i.stored.map (·.1) := by
  intro e he size name hb hk
  obtain ⟨_, tr, htr, rfl, _, _⟩ := hc
  obtain ⟨x, hx, rfl⟩ := List.mem_map.1 he
  have hra : readAll data = .ok (tr.map (·.1)) := by simp [readAll, htr]
  have hm : (name, size) ∈ storedFiles (tr.map (·.1)) := by
    unfold storedFiles
    rw [List.mem_filterMap]
    refine ⟨x.1, List.mem_map_of_mem hx, ?_⟩
    have h1 : x.1.btype = 0x6A := hb
    have h2 : x.1.kind = .stored size name := hk
    rw [if_pos h1, h2]
  have hs := info_stored hra h name
  have hf : (name, size) ∈ (storedFiles (tr.map (·.1))).filter fun x => x.1 = name := List.mem_filter.2 ⟨hm, by simp⟩
  cases hg : ((storedFiles (tr.map (·.1))).filter fun x => x.1 = name).getLast? with
  | none =>
    rw [List.getLast?_eq_none_iff] at hg
    rw [hg] at hf
    cases hf
  | some y =>
    rw [hg] at hs
    exact lookup_map_fst hs
where
  lookup_map_fst {d : List (Str × Nat)} {k : Str} {v : Nat} (h : d.lookup k = some v) : k ∈ d.map (·.1) :=
    List.mem_map_of_mem (f := (·.1)) (lookup_mem h)

/-! ### The release -/

/-- The volumes of a release can be found and rebuilt: `rars` are the paths the SFV files give, each with its data and
its name in the SRR. -/
structure Release (w : World) (fuel : Nat) (fs : FS) (sfvs : List Path) (folder : Str) (rars : List Path) (data : Path → Bytes) (name : Path → Str) : Prop where
  found : collect w fs fuel sfvs = .ok rars
  good : ∀ p ∈ rars, Usual p ∧ OnlyCase w fs p ∧ fs p = some (data p) ∧ GoodVolume (data p) ∧ srrName w true folder p = .ok (name p)

/-- The SRR is long enough to be read when nothing is stored: it has a volume, or the application name is not short. -/
def LongEnough (app : Str) (rars : List Path) : Prop := rars ≠ [] ∨ ∀ h, mkSrrHeader app = .ok h → 20 ≤ h.length

theorem split_map {α β : Type} {f : α → β} {l : List α} {a b : List β} (h : l.map f = a ++ b) : ∃ x y, l = x ++ y ∧ x.map f = a ∧ y.map f = b := by
  refine ⟨l.take a.length, l.drop a.length, (List.take_append_drop _ _).symm, ?_, ?_⟩
  · rw [List.map_take, h, List.take_left']; rfl
  · rw [List.map_drop, h, List.drop_left']; rfl

/-- The entries of the SRR that `create_srr` makes: the header, stored files, and the rest, which starts with a volume. -/
theorem created_contents {w : World} {fuel : Nat} {fs : FS} {app : Str} {sfvs store : List Path} {folder : Str} {compressed oso : Bool} {made : Bytes}
    {rars : List Path} {data : Path → Bytes} {name : Path → Str} (hr : Release w fuel fs sfvs folder rars data name) (hlen : LongEnough app rars)
    (hc : createFrom w fuel fs app sfvs folder store true compressed oso = .ok made) :
    ∃ h es1 es2 vols v dict o osos, vols = (rars.map fun p => ((⟨p, p, name p⟩ : RarIn), data p)) ∧
      mkSrrHeader app = .ok h ∧ Contents made (⟨0x69, .srrHeader app, h, []⟩ :: (es1 ++ es2)) ∧
      (∀ e ∈ es1, ∃ size n, e.btype = 0x6A ∧ e.kind = .stored size n) ∧ (∀ e ∈ es2, e.btype ≠ 0x6A) ∧
      (∀ e ∈ es2.head?, e.btype = 0x71) ∧
      (∀ p ∈ osos, ∃ s h n, p = Piece.oso s h n) ∧ es2.map entryRow = (volumesPieces vols ++ osos).map Piece.row ∧
      createVolumes fs compressed [] (vols.map (·.1)) = .ok (v, dict) ∧
      (if oso then osoPieces w.dig w.lower fs fuel dict else .ok [] : Res Bytes) = .ok o ∧ entriesBytes es2 = v ++ o ∧
      20 ≤ (h ++ entriesBytes es2).length := by
  unfold createFrom at hc
  rw [bind_eq_ok] at hc
  obtain ⟨stored, hs, hc⟩ := hc
  rw [hr.found, ok_bind, rars_found (name := name) (fun p hp => by
    obtain ⟨h1, h2, h3, _, h5⟩ := hr.good p hp
    exact ⟨h1, h2, by rw [h3]; rfl, h5⟩), ok_bind] at hc
  have hmap : (rars.map fun p => (⟨p, p, name p⟩ : RarIn)) = (rars.map fun p => ((⟨p, p, name p⟩ : RarIn), data p)).map (·.1) := by
    rw [List.map_map]; rfl
  rw [hmap] at hc
  have hvols : ∀ v ∈ (rars.map fun p => ((⟨p, p, name p⟩ : RarIn), data p)), fs v.1.exact = some v.2 ∧ GoodVolume v.2 := by
    intro v hv
    obtain ⟨p, hp, rfl⟩ := List.mem_map.1 hv
    obtain ⟨_, _, h3, h4, _⟩ := hr.good p hp
    exact ⟨h3, h4⟩
  have hnil : (rars.map fun p => ((⟨p, p, name p⟩ : RarIn), data p)) = [] → rars = [] := by simp
  generalize (rars.map fun p => ((⟨p, p, name p⟩ : RarIn), data p)) = vols at *
  obtain ⟨files, osos, f1, f2, f3, f4, f5, ⟨v, dict, o, g1, g2, g3⟩, f6⟩ := create_pieces_full hc hvols
  have hgood := fun v hv => (hvols v hv).2
  have hrest : ∃ h, mkSrrHeader app = .ok h ∧ writeSrr app (storedPieces [] ++ (volumesPieces vols ++ osos)) = .ok (h ++ (v ++ o)) ∧
      ∃ s, made = h ++ (s ++ (v ++ o)) := by
    have f6' := f6
    simp only [writeSrr, bind_eq_ok, pure_eq_ok, Except.ok.injEq] at f6'
    obtain ⟨h, e1, x, e2, e3⟩ := f6'
    refine ⟨h, e1, ?_, ?_⟩
    · unfold writeSrr storedPieces
      rw [e1, List.map_nil, List.nil_append, ok_bind, g3, ok_bind]
      rfl
    · have : ∃ s, x = s ++ (v ++ o) := by
        clear e3 f6 f1 f2
        generalize storedPieces files = ps at e2
        induction ps generalizing x with
        | nil =>
          rw [List.nil_append, g3] at e2
          exact ⟨[], (Except.ok.inj e2).symm⟩
        | cons p ps ih =>
          simp only [List.cons_append, writePieces, bind_eq_ok, pure_eq_ok, Except.ok.injEq] at e2
          obtain ⟨raw, _, y, k2, k3⟩ := e2
          obtain ⟨s, hs⟩ := ih y k2
          exact ⟨raw ++ (p.data ++ s), by rw [← k3, hs]; simp⟩
      obtain ⟨s, hs⟩ := this
      exact ⟨s, by rw [← e3, hs]⟩
  obtain ⟨h, hh, hw, s, hmade⟩ := hrest
  have h20 : 20 ≤ (h ++ (v ++ o)).length := by
    rcases hlen with hl | hl
    · exact srr_length hw (fun hx => hl (hnil hx)) hgood
    · have := hl h hh
      rw [List.length_append]
      omega
  have h20' : 20 ≤ made.length := by
    rw [hmade]
    simp only [List.length_append] at h20 ⊢
    omega
  obtain ⟨h', es, k1, k2, k3⟩ := written_contents f6 h20' (pieces_ok hgood f3)
  rw [hh] at k1
  obtain rfl := Except.ok.inj k1
  rw [List.map_append] at k3
  obtain ⟨es1, es2, rfl, m1, m2⟩ := split_map k3
  have hbytes : entriesBytes es2 = v ++ o := by
    have := entries_write m2
    rw [g3] at this
    exact (Except.ok.inj this).symm
  have row1 : ∀ e ∈ es1, ∃ p ∈ storedPieces files, entryRow e = p.row := by
    intro e he
    have : entryRow e ∈ (storedPieces files).map Piece.row := m1 ▸ List.mem_map_of_mem he
    obtain ⟨p, hp, hq⟩ := List.mem_map.1 this
    exact ⟨p, hp, hq.symm⟩
  have row2 : ∀ e ∈ es2, ∃ p ∈ volumesPieces vols ++ osos, entryRow e = p.row := by
    intro e he
    have : entryRow e ∈ (volumesPieces vols ++ osos).map Piece.row := m2 ▸ List.mem_map_of_mem he
    obtain ⟨p, hp, hq⟩ := List.mem_map.1 this
    exact ⟨p, hp, hq.symm⟩
  refine ⟨h, es1, es2, vols, v, dict, o, osos, rfl, hh, k2, ?_, ?_, ?_, f3, m2, g1, g2, hbytes, by rw [hbytes]; exact h20⟩
  · intro e he
    obtain ⟨p, hp, hq⟩ := row1 e he
    unfold storedPieces at hp
    obtain ⟨x, _, rfl⟩ := List.mem_map.1 hp
    unfold entryRow Piece.row at hq
    simp only [Prod.mk.injEq] at hq
    exact ⟨_, _, hq.1, hq.2.1⟩
  · intro e he
    obtain ⟨p, hp, hq⟩ := row2 e he
    unfold entryRow Piece.row at hq
    simp only [Prod.mk.injEq] at hq
    rw [hq.1]
    have hin := rarPiecesOk_in (pieces_ok (files := []) hgood f3)
    cases p with
    | stored n d =>
      rcases List.mem_append.1 hp with hp | hp
      · unfold volumesPieces at hp
        obtain ⟨v, _, hp⟩ := List.mem_flatMap.1 hp
        rcases List.mem_cons.1 hp with hp | hp
        · cases hp
        · unfold volumePieces at hp
          cases htr : readTrace v.2 with
          | error e => rw [htr] at hp; cases hp
          | ok tr =>
            rw [htr] at hp
            unfold tracePieces at hp
            obtain ⟨y, _, hy⟩ := List.mem_map.1 hp
            split at hy <;> cases hy
      · obtain ⟨_, _, _, hx⟩ := f3 _ hp
        cases hx
    | rarFile _ => exact (by decide : (0x71 : Nat) ≠ 0x6A)
    | oso _ _ _ => exact (by decide : (0x6B : Nat) ≠ 0x6A)
    | padding _ => exact (by decide : (0x6C : Nat) ≠ 0x6A)
    | rar b =>
      have := (hin b (by unfold storedPieces; exact hp)).2
      show b.btype ≠ 0x6A
      omega
  · intro e he
    cases vols with
    | nil =>
      rw [f5 rfl] at m2
      have : es2 = [] := by simpa [volumesPieces] using m2
      rw [this] at he
      cases he
    | cons v0 vt =>
      cases es2 with
      | nil => cases he
      | cons e0 et =>
        simp only [List.head?_cons, Option.mem_def, Option.some.injEq] at he
        subst he
        unfold volumesPieces at m2
        rw [List.flatMap_cons, List.cons_append, List.cons_append, List.map_cons, List.map_cons] at m2
        have := (List.cons.inj m2).1
        unfold entryRow Piece.row at this
        simp only [Prod.mk.injEq] at this
        exact this.1

/-- C82: what `generate_srr` puts in the place of the SRR is the SRR of the volumes with exactly the files of the working
folder. -/
theorem auto_contents {lower upper : Str → Str} {w : World} {fuel : Nat} {fs : FS} {app : Str} {sfvs store : List Path} {folder : Str} {compressed oso : Bool}
    {made : Bytes} {rars : List Path} {data : Path → Bytes} {name : Path → Str} {j : AutoJob} {i : Info}
    (hr : Release w fuel fs sfvs folder rars data name) (hlen : LongEnough app rars)
    (hc : createFrom w fuel fs app sfvs folder store true compressed oso = .ok made) (hi : info lower upper made = .ok i) :
    autoResult lower upper j made = releaseSrr w fuel fs app sfvs folder j.news compressed oso := by
  obtain ⟨h, es1, es2, vols, v, dict, o, osos, hvols, hh, hcont, s1, s2, s3, _, _, g1, g2, hb, h20⟩ := created_contents hr hlen hc
  have hnames := info_names hcont hi
  have hfilter : (⟨0x69, .srrHeader app, h, []⟩ :: (es1 ++ es2) : List Entry).filter (fun e => !e.isOneOf (i.stored.map (·.1))) =
      ⟨0x69, .srrHeader app, h, []⟩ :: es2 := by
    rw [List.filter_cons_of_pos (by rfl), List.filter_append]
    have e1 : es1.filter (fun e => !e.isOneOf (i.stored.map (·.1))) = [] := by
      rw [List.filter_eq_nil_iff]
      intro e he
      obtain ⟨size, n, b1, b2⟩ := s1 e he
      have := hnames e (by simp [he]) size n b1 b2
      unfold Entry.isOneOf
      rw [b2]
      simp only [b1, beq_self_eq_true, Bool.true_and, List.contains_eq_mem, this, decide_true, Bool.not_true]
      simp
    have e2 : es2.filter (fun e => !e.isOneOf (i.stored.map (·.1))) = es2 := by
      rw [List.filter_eq_self]
      intro e he
      have := s2 e he
      unfold Entry.isOneOf
      split
      · simp [this]
      · rfl
    rw [e1, e2]
    rfl
  obtain ⟨l1, l2⟩ := left_contents (i.stored.map (·.1)) hcont
  rw [hfilter] at l1 l2
  have hlb : entriesBytes (⟨0x69, .srrHeader app, h, []⟩ :: es2) = h ++ entriesBytes es2 := by
    rw [entriesBytes_cons]; rfl
  have hleft := l2 (by rw [hlb]; exact h20)
  have hadd := added_contents j.news hleft
  have hbefore : beforeRar (⟨0x69, .srrHeader app, h, []⟩ :: es2) = [⟨0x69, .srrHeader app, h, []⟩] := by
    unfold beforeRar
    rw [List.takeWhile_cons_of_pos (by rfl)]
    cases es2 with
    | nil => rfl
    | cons e et =>
      rw [List.takeWhile_cons_of_neg]
      simp [s3 e (by simp)]
  have hfrom : fromRar (⟨0x69, .srrHeader app, h, []⟩ :: es2) = es2 := by
    unfold fromRar
    rw [List.dropWhile_cons_of_pos (by rfl)]
    cases es2 with
    | nil => rfl
    | cons e et =>
      rw [List.dropWhile_cons_of_neg]
      simp [s3 e (by simp)]
  rw [hbefore, hfrom] at hadd
  unfold autoResult
  rw [hi, ok_bind, l1, ok_bind]
  show (Except.bind _ _) = _
  rw [hadd]
  unfold releaseSrr
  rw [hh, ok_bind, hr.found, ok_bind, rars_found (name := name) (fun p hp => by
    obtain ⟨h1, h2, h3, _, h5⟩ := hr.good p hp
    exact ⟨h1, h2, by rw [h3]; rfl, h5⟩), ok_bind]
  have hmap : (rars.map fun p => (⟨p, p, name p⟩ : RarIn)) = vols.map (·.1) := by
    rw [hvols, List.map_map]; rfl
  rw [hmap]
  cases newEntries j.news with
  | error e => rfl
  | ok es =>
    rw [ok_bind, g1, ok_bind]
    dsimp only
    rw [g2, ok_bind, ← hb, entriesBytes_cons, entriesBytes_nil]
    simp [Except.map]

end Rescene.Props
