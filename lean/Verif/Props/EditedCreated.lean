import Verif.Props.History
import Verif.Props.AutoContents
/-
C112: an edited SRR is the one that would have been created with the resulting stored files.
-/
namespace Rescene.Props
open Rescene Rescene.Spec

/-- The entry is what is written for some file. -/
def Canon (e : Entry) : Prop := ∃ n d raw, mkStored n (d : Bytes).length = .ok raw ∧ e = ⟨0x6A, .stored d.length n, raw, d⟩

theorem newEntries_canon {news : List NewFile} : ∀ {adds : List Entry}, newEntries news = .ok adds → ∀ e ∈ adds, Canon e := by
  induction news with
  | nil => intro adds h; simp only [newEntries, Except.ok.injEq] at h; subst h; simp
  | cons f t ih =>
    intro adds h
    simp only [newEntries, bind_eq_ok, pure_eq_ok, Except.ok.injEq] at h
    obtain ⟨e, he, r, hr, rfl⟩ := h
    simp only [newEntry, bind_eq_ok, pure_eq_ok, Except.ok.injEq] at he
    obtain ⟨d, hd, raw, hm, rfl⟩ := he
    intro x hx
    rcases List.mem_cons.mp hx with rfl | hx
    · exact ⟨f.1, d, raw, hm, rfl⟩
    · exact ih hr x hx

theorem canon_type {e : Entry} (h : Canon e) : e.btype = 0x6A := by obtain ⟨n, d, raw, _, rfl⟩ := h; rfl

/-- The shape of an SRR: a header, stored files, and the rest. -/
structure Shape (h : Entry) (S R : List Entry) : Prop where
  header : h.btype = 0x69
  stored : ∀ e ∈ S, Canon e
  other : ∀ e ∈ R, e.btype ≠ 0x6A
  first : ∀ e ∈ R.head?, e.btype = 0x71

theorem Shape.split {h : Entry} {S R : List Entry} (hs : Shape h S R) : beforeRar (h :: (S ++ R)) = h :: S ∧ fromRar (h :: (S ++ R)) = R := by
  have hb : ∀ e ∈ h :: S, e.btype ≠ 0x71 := by
    intro e he
    rcases List.mem_cons.mp he with rfl | he
    · rw [hs.header]; decide
    · rw [canon_type (hs.stored e he)]; decide
  rw [← List.cons_append, before_append hb, from_append hb]
  cases hR : R with
  | nil => simp [beforeRar, fromRar]
  | cons r t =>
    have := hs.first r (by simp [hR])
    rw [(split_rar this t).1, (split_rar this t).2]
    simp

theorem isOneOf_type {e : Entry} {names : List Str} (h : e.btype ≠ 0x6A) : e.isOneOf names = false := by
  unfold Entry.isOneOf
  cases e.kind <;> simp [h]

/-- An edit changes the stored files only. -/
theorem edit_shape {h : Entry} {S R c' : List Entry} {e : Edit} (hs : Shape h S R) (ha : EntriesAfter (h :: (S ++ R)) c' e) :
    ∃ S', c' = h :: (S' ++ R) ∧ Shape h S' R := by
  cases e with
  | add storeFiles news =>
    obtain ⟨adds, hn, rfl⟩ := ha
    refine ⟨S ++ adds, by rw [hs.split.1, hs.split.2]; simp, hs.header, ?_, hs.other, hs.first⟩
    intro e he
    rcases List.mem_append.mp he with he | he
    · exact hs.stored e he
    · exact newEntries_canon hn e he
  | remove names =>
    have h' : c' = (h :: (S ++ R)).filter (fun e => !e.isOneOf names) := ha
    refine ⟨S.filter (fun e => !e.isOneOf names), ?_, hs.header, fun e he => hs.stored e (List.mem_filter.mp he).1, hs.other, hs.first⟩
    have hR : R.filter (fun e => !e.isOneOf names) = R := by
      rw [List.filter_eq_self]
      intro e he
      rw [isOneOf_type (hs.other e he)]
      rfl
    rw [h', List.filter_cons_of_pos (by rw [isOneOf_type (by rw [hs.header]; decide)]; rfl), List.filter_append, hR]
  | rename name newName =>
    obtain ⟨c1, e, c2, raw, hc, he, hfirst, hm, rfl⟩ := ha
    have hnew : Canon ⟨0x6A, .stored e.data.length newName, raw, e.data⟩ := ⟨newName, e.data, raw, hm, rfl⟩
    cases c1 with
    | nil =>
      have : h = e := (List.cons.inj hc).1
      have h2 := hs.header
      rw [this, he.1] at h2
      exact absurd h2 (by decide)
    | cons x c1 =>
      rw [List.cons_append] at hc
      obtain ⟨rfl, hc2⟩ := List.cons.inj hc
      rcases List.append_eq_append_iff.mp hc2 with ⟨m, h1, h2⟩ | ⟨m, h1, h2⟩
      · exact absurd he.1 (hs.other e (by rw [h2]; simp))
      · cases m with
        | nil =>
          rw [List.nil_append] at h2
          exact absurd he.1 (hs.other e (by rw [← h2]; simp))
        | cons y m =>
          obtain ⟨rfl, rfl⟩ := List.cons.inj h2
          refine ⟨c1 ++ ⟨0x6A, .stored e.data.length newName, raw, e.data⟩ :: m, by simp, hs.header, ?_, hs.other, hs.first⟩
          intro z hz
          rcases List.mem_append.mp hz with hz | hz
          · exact hs.stored z (by rw [h1]; simp [hz])
          · rcases List.mem_cons.mp hz with rfl | hz
            · exact hnew
            · exact hs.stored z (by rw [h1]; simp [hz])

theorem other_files {R : List Entry} (h : ∀ e ∈ R, e.btype ≠ 0x6A) : R.filterMap storedFile = [] := by
  rw [List.filterMap_eq_nil_iff]
  intro e he
  unfold storedFile
  have := h e he
  cases e.kind <;> simp [this]

theorem Shape.files {h : Entry} {S R : List Entry} (hs : Shape h S R) : storedIn (h :: (S ++ R)) = ⟨S.filterMap storedFile, []⟩ := by
  unfold storedIn
  rw [hs.split.1, hs.split.2, other_files hs.other]
  have : storedFile h = none := by
    unfold storedFile
    have := hs.header
    cases h.kind <;> simp [this]
  simp [this]

/-- Any history of edits changes the stored files only. -/
theorem edits_shape {p : Path} {es : List Edit} {fs fs' : FS} (he : EditedBy p es fs fs') : ∀ {file new : Bytes} {h : Entry} {S R : List Entry},
    fs p = some file → Shape h S R → file = entriesBytes (h :: (S ++ R)) → (20 ≤ file.length → Contents file (h :: (S ++ R))) →
    fs' p = some new → ∃ S', Shape h S' R ∧ new = entriesBytes (h :: (S' ++ R)) ∧
      es.foldl Stored.edit ⟨S.filterMap storedFile, []⟩ = ⟨S'.filterMap storedFile, []⟩ := by
  induction he with
  | none fs =>
    intro file new h S R h1 h2 h3 h4 h5
    rw [h1] at h5
    cases h5
    exact ⟨S, h2, h3, rfl⟩
  | @edit es fs fs1 fs2 file1 tmp e hne ht hs1 hr more ih =>
    intro file new h S R h1 h2 h3 h4 h5
    rw [hs1] at h1
    cases h1
    by_cases h20 : 20 ≤ file1.length
    · obtain ⟨new1, c1, rfl, k2, k3, k4⟩ := edit_result hne ht hs1 (h4 h20) hr
      obtain ⟨S1, rfl, hs⟩ := edit_shape h2 k3
      obtain ⟨S2, j1, j2, j3⟩ := ih (FS.set_eq _ _ _) hs k4 k2 h5
      refine ⟨S2, j1, j2, ?_⟩
      rw [List.foldl_cons, ← j3, ← hs.files, edit_storedIn k3, h2.files]
    · exact absurd hr (fun hr => edit_short (by omega) hr)

theorem canon_row {S : List Entry} (h : ∀ e ∈ S, Canon e) : S.map entryRow = (storedPieces (S.filterMap storedFile)).map Piece.row := by
  induction S with
  | nil => rfl
  | cons e t ih =>
    obtain ⟨n, d, raw, hm, rfl⟩ := h e (by simp)
    have hf : storedFile ⟨0x6A, .stored d.length n, raw, d⟩ = some (n, d) := by simp [storedFile]
    rw [List.filterMap_cons_some hf]
    unfold storedPieces at ih ⊢
    rw [List.map_cons, List.map_cons, List.map_cons, ih (fun e he => h e (by simp [he]))]
    congr 1
    unfold entryRow Piece.row
    show _ = (_, _, mkStored n d.length, _)
    rw [hm]
    rfl

theorem pieces_canon {files : List (Str × Bytes)} : ∀ {S : List Entry}, S.map entryRow = (storedPieces files).map Piece.row →
    (∀ e ∈ S, Canon e) ∧ S.filterMap storedFile = files := by
  induction files with
  | nil =>
    intro S h
    have : S = [] := by simpa [storedPieces] using h
    subst this
    exact ⟨by simp, rfl⟩
  | cons f t ih =>
    intro S h
    cases S with
    | nil => simp [storedPieces] at h
    | cons e S =>
      unfold storedPieces at ih h
      rw [List.map_cons, List.map_cons, List.map_cons] at h
      obtain ⟨h1, h2⟩ := List.cons.inj h
      obtain ⟨i1, i2⟩ := ih h2
      unfold entryRow Piece.row at h1
      simp only [Prod.mk.injEq] at h1
      obtain ⟨g1, g2, g3, g4⟩ := h1
      have hd : e.data = f.2 := g4
      have hk : e.kind = .stored f.2.length f.1 := g2
      have hb : e.btype = 0x6A := g1
      have hf : storedFile e = some f := by simp [storedFile, hk, hb, hd]
      constructor
      · intro x hx
        rcases List.mem_cons.mp hx with rfl | hx
        · refine ⟨f.1, f.2, x.raw, g3.symm, ?_⟩
          cases x
          dsimp only at hd hk hb
          subst hd hk hb
          rfl
        · exact i1 x hx
      · rw [List.filterMap_cons_some hf, i2]

theorem rest_entries {vols : List (RarIn × Bytes)} {osos : List Piece} {R : List Entry} (hgood : ∀ v ∈ vols, GoodVolume v.2)
    (f3 : ∀ p ∈ osos, ∃ s h n, p = Piece.oso s h n) (f5 : vols = [] → osos = [])
    (m2 : R.map entryRow = (volumesPieces vols ++ osos).map Piece.row) :
    (∀ e ∈ R, e.btype ≠ 0x6A) ∧ ∀ e ∈ R.head?, e.btype = 0x71 := by
  have row2 : ∀ e ∈ R, ∃ p ∈ volumesPieces vols ++ osos, entryRow e = p.row := by
    intro e he
    have : entryRow e ∈ (volumesPieces vols ++ osos).map Piece.row := m2 ▸ List.mem_map_of_mem he
    obtain ⟨p, hp, hq⟩ := List.mem_map.1 this
    exact ⟨p, hp, hq.symm⟩
  constructor
  · intro e he
    obtain ⟨p, hp, hq⟩ := row2 e he
    unfold entryRow Piece.row at hq
    simp only [Prod.mk.injEq] at hq
    rw [hq.1]
    have hin := rarPiecesOk_in (pieces_ok (files := []) hgood f3)
    cases p with
    | stored n d =>
      rcases List.mem_append.1 hp with hp | hp
      · unfold volumesPieces at hp
        obtain ⟨v, _, hp⟩ := List.mem_flatMap.1 hp
        rcases List.mem_cons.1 hp with hp | hp
        · cases hp
        · unfold volumePieces at hp
          cases htr : readTrace v.2 with
          | error e => rw [htr] at hp; cases hp
          | ok tr =>
            rw [htr] at hp
            unfold tracePieces at hp
            obtain ⟨y, _, hy⟩ := List.mem_map.1 hp
            split at hy <;> cases hy
      · obtain ⟨_, _, _, hx⟩ := f3 _ hp
        cases hx
    | rarFile _ => exact (by decide : (0x71 : Nat) ≠ 0x6A)
    | oso _ _ _ => exact (by decide : (0x6B : Nat) ≠ 0x6A)
    | padding _ => exact (by decide : (0x6C : Nat) ≠ 0x6A)
    | rar b =>
      have := (hin b (by unfold storedPieces; exact hp)).2
      show b.btype ≠ 0x6A
      omega
  · intro e he
    cases vols with
    | nil =>
      rw [f5 rfl] at m2
      have : R = [] := by simpa [volumesPieces] using m2
      rw [this] at he
      cases he
    | cons v0 vt =>
      cases R with
      | nil => cases he
      | cons e0 et =>
        simp only [List.head?_cons, Option.mem_def, Option.some.injEq] at he
        subst he
        unfold volumesPieces at m2
        rw [List.flatMap_cons, List.cons_append, List.cons_append, List.map_cons, List.map_cons] at m2
        have := (List.cons.inj m2).1
        unfold entryRow Piece.row at this
        simp only [Prod.mk.injEq] at this
        exact this.1

theorem storeAll_files {fs : FS} {stored : List (Str × Path)} (h : ∀ x ∈ stored, (fs x.2).isSome = true) :
    storeAll fs stored = writePieces (storedPieces (filesOf fs stored)) := by
  induction stored with
  | nil => rfl
  | cons x t ih =>
    obtain ⟨n, p⟩ := x
    obtain ⟨d, hd⟩ := Option.isSome_iff_exists.mp (h (n, p) (by simp))
    have hd' : fs p = some d := hd
    have hf : filesOf fs ((n, p) :: t) = (n, d) :: filesOf fs t := by simp [filesOf, hd']
    rw [storeAll, hd', hf]
    unfold storedPieces at ih ⊢
    rw [List.map_cons, writePieces]
    show (mkStored n d.length >>= _) = (mkStored n d.length >>= _)
    rw [ih (fun x hx => h x (by simp [hx]))]
    rfl

theorem storeAll_some {fs : FS} {stored : List (Str × Path)} : ∀ {s : Bytes}, storeAll fs stored = .ok s → ∀ x ∈ stored, (fs x.2).isSome = true := by
  induction stored with
  | nil => simp
  | cons x t ih =>
    intro s h
    obtain ⟨n, p⟩ := x
    rw [storeAll] at h
    cases hf : fs p with
    | none => rw [hf] at h; simp at h
    | some data =>
      rw [hf] at h
      simp only [bind_eq_ok, pure_eq_ok, Except.ok.injEq] at h
      obtain ⟨hd, h1, more, h2, h3⟩ := h
      intro x hx
      rcases List.mem_cons.mp hx with rfl | hx
      · rw [hf]; rfl
      · exact ih h2 x hx

/-- Creating an SRR, then any history of edits: what is written. -/
theorem edited_pieces {dig : Nat → Bool} {lower : Str → Str} {fuel : Nat} {fs0 : FS} {app : Str} {stored : List (Str × Path)}
    {vols : List (RarIn × Bytes)} {compressed oso : Bool} {srr new : Bytes} {p : Path} {es : List Edit} {fs fs' : FS}
    (hcreate : createSrr dig lower fuel fs0 app stored (vols.map (·.1)) compressed oso = .ok srr)
    (hvols : ∀ v ∈ vols, fs0 v.1.exact = some v.2 ∧ GoodVolume v.2)
    (hs : fs p = some srr) (he : EditedBy p es fs fs') (hn : fs' p = some new) :
    ∃ h s v dict o osos, mkSrrHeader app = .ok h ∧ (∀ p ∈ osos, ∃ s h n, p = Piece.oso s h n) ∧
      createVolumes fs0 compressed [] (vols.map (·.1)) = .ok (v, dict) ∧
      (if oso then osoPieces dig lower fs0 fuel dict else .ok [] : Res Bytes) = .ok o ∧
      writePieces (volumesPieces vols ++ osos) = .ok (v ++ o) ∧
      writePieces (storedPieces (es.foldl Stored.edit ⟨filesOf fs0 stored, []⟩).all) = .ok s ∧ new = h ++ (s ++ (v ++ o)) := by
  obtain ⟨_, osos, _, _, f3, f4, f5, ⟨v, dict, o, g1, g2, g3⟩, _⟩ := create_pieces_full hcreate hvols
  have hc := hcreate
  unfold createSrr at hc
  simp only [bind_eq_ok, pure_eq_ok, Except.ok.injEq] at hc
  obtain ⟨h, c1, s, c2, x, c3, o', c4, c5⟩ := hc
  rw [g1] at c3
  cases c3
  have c4' : (if oso then osoPieces dig lower fs0 fuel dict else .ok [] : Res Bytes) = .ok o' := c4
  rw [g2] at c4'
  cases c4'
  rw [storeAll_files (storeAll_some c2)] at c2
  have c5' : h ++ (s ++ (v ++ o)) = srr := c5
  by_cases h20 : 20 ≤ srr.length
  · have hw : writeSrr app (storedPieces (filesOf fs0 stored) ++ (volumesPieces vols ++ osos)) = .ok srr := by
      unfold writeSrr
      rw [c1, ok_bind, writePieces_append _ _ c2 g3, ok_bind, ← c5']
      rfl
    have hgood := fun v hv => (hvols v hv).2
    obtain ⟨h', es1, k1, k2, k3⟩ := written_contents hw h20 (pieces_ok hgood f3)
    rw [c1] at k1
    cases k1
    rw [List.map_append] at k3
    obtain ⟨S, R, rfl, m1, m2⟩ := split_map k3
    obtain ⟨q1, q2⟩ := pieces_canon m1
    obtain ⟨r1, r2⟩ := rest_entries hgood f3 f5 m2
    obtain ⟨S', t1, t2, t3⟩ := edits_shape he hs ⟨rfl, q1, r1, r2⟩ (contents_bytes k2).symm (fun _ => k2) hn
    have hb : entriesBytes R = v ++ o := by
      have := entries_write m2
      rw [g3] at this
      exact (Except.ok.inj this).symm
    refine ⟨h, entriesBytes S', v, dict, o, osos, c1, f3, g1, g2, g3, ?_, ?_⟩
    · rw [← q2, t3]
      unfold Stored.all
      rw [List.append_nil]
      exact entries_write (canon_row t1.stored)
    · rw [t2, entriesBytes_cons]
      unfold entriesBytes at hb ⊢
      rw [List.map_append, List.flatten_append, hb]
      simp
  · cases he with
    | none =>
      rw [hs] at hn
      cases hn
      exact ⟨h, s, v, dict, o, osos, c1, f3, g1, g2, g3, by simpa [Stored.all] using c2, c5'.symm⟩
    | edit e hne ht hs1 hr more =>
      rw [hs] at hs1
      cases hs1
      exact absurd hr (fun hr => edit_short (by omega) hr)

/-- C112: an SRR that was created and then edited, in any number of steps, is byte for byte the one that is created with the files
that these edits of the list of stored files give.  The second creation happens on a disk that gives the same volumes and hashes. -/
theorem edited_as_created {dig : Nat → Bool} {lower : Str → Str} {fuel : Nat} {fs0 fs2 : FS} {app : Str} {stored stored2 : List (Str × Path)}
    {vols : List (RarIn × Bytes)} {compressed oso : Bool} {srr new : Bytes} {p : Path} {es : List Edit} {fs fs' : FS}
    (hcreate : createSrr dig lower fuel fs0 app stored (vols.map (·.1)) compressed oso = .ok srr)
    (hvols : ∀ v ∈ vols, fs0 v.1.exact = some v.2 ∧ GoodVolume v.2)
    (hs : fs p = some srr) (he : EditedBy p es fs fs') (hn : fs' p = some new)
    (hsame : createSrr dig lower fuel fs2 app [] (vols.map (·.1)) compressed oso = createSrr dig lower fuel fs0 app [] (vols.map (·.1)) compressed oso)
    (hfiles : filesOf fs2 stored2 = (es.foldl Stored.edit ⟨filesOf fs0 stored, []⟩).all) (hall : ∀ x ∈ stored2, (fs2 x.2).isSome = true) :
    createSrr dig lower fuel fs2 app stored2 (vols.map (·.1)) compressed oso = .ok new := by
  obtain ⟨h, s, v, dict, o, osos, c1, _, g1, g2, _, hw, rfl⟩ := edited_pieces hcreate hvols hs he hn
  have h0 : createSrr dig lower fuel fs0 app [] (vols.map (·.1)) compressed oso = .ok (h ++ (v ++ o)) := by
    unfold createSrr
    rw [c1, ok_bind, storeAll, ok_bind, g1, ok_bind]
    dsimp only
    rw [g2]
    rfl
  rw [h0] at hsame
  unfold createSrr at hsame ⊢
  rw [c1, ok_bind] at hsame ⊢
  rw [storeAll, ok_bind] at hsame
  rw [storeAll_files hall, hfiles, hw, ok_bind]
  simp only [bind_eq_ok, pure_eq_ok, Except.ok.injEq, List.nil_append, List.append_cancel_left_eq] at hsame ⊢
  obtain ⟨a, e1, b, e2, e3⟩ := hsame
  exact ⟨a, e1, b, e2, e3⟩

/-- C112: from an SRR that was created and then edited, in any number of steps, reconstruction gives the volumes byte for byte, also
when the stored files are extracted, as it does from the SRR that was created (C06). -/
theorem edited_reconstruct {dig : Nat → Bool} {lower : Str → Str} {fuel : Nat} {fs0 : FS} {app : Str} {stored : List (Str × Path)}
    {vols : List (RarIn × Bytes)} {compressed oso : Bool} {srr new : Bytes} {p : Path} {es : List Edit} {fs fs' : FS}
    (hcreate : createSrr dig lower fuel fs0 app stored (vols.map (·.1)) compressed oso = .ok srr)
    (hvols : ∀ v ∈ vols, fs0 v.1.exact = some v.2 ∧ GoodVolume v.2) (hne : vols ≠ [])
    (hs : fs p = some srr) (he : EditedBy p es fs fs') (hn : fs' p = some new)
    {a : RecArgs} {fs1 : FS} (hsrr : fs1 a.srr = some new) (hpart : a.part = []) {ext : List Path}
    (hext : a.extractFiles = true → ∀ x ∈ (es.foldl Stored.edit ⟨filesOf fs0 stored, []⟩).all,
      ∃ p ∈ ext, opath x.1 a.extractPaths a.outFolder = .ok p ∧ p ≠ a.srr)
    {out : RarIn × Bytes → Path}
    (hout : ∀ v ∈ vols, opath v.1.name a.extractPaths a.outFolder = .ok (out v) ∧
      (fs1 (out v) = none ∧ out v ∉ ext ∨ a.ask (out v) = true))
    (hdiff : (vols.map out).Nodup)
    (hsrc : Packs (SourceIs a fs1 (vols.map out ++ ext)) none (vols.flatMap fun v => volumeParts v.2)) :
    ∃ fs2 reports, reconstruct a fs1 = .ok (fs2, reports, true) ∧ (∀ v ∈ vols, fs2 (out v) = some v.2) ∧
      (∀ q, q ∉ vols.map out → q ∉ ext → fs2 q = fs1 q) ∧
      reports = if a.skipCrc = true then [] else wrongParts none (vols.flatMap fun v => volumeParts v.2) := by
  obtain ⟨h, s, v, dict, o, osos, c1, f3, g1, g2, g3, hw, rfl⟩ := edited_pieces hcreate hvols hs he hn
  refine written_reports (app := app) (osos := osos) ?_ f3 (fun v hv => (hvols v hv).2) hne hsrr hpart hext hout hdiff hsrc
  unfold writeSrr
  rw [c1, ok_bind, writePieces_append _ _ hw g3, ok_bind]
  rfl

end Rescene.Props
