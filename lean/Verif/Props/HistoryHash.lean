import Verif.Props.MadeSrr
import Verif.Props.Info
import Verif.Props.InfoSizes
/-
C114: the content hash of an SRR tells which volumes it is for, whatever its history.
-/
namespace Rescene.Props
open Rescene Rescene.Spec

/-- The entry for a piece. -/
def pieceEntry (p : Piece) : Entry := ⟨p.btype, p.kind, (match p.raw with | .ok r => r | .error _ => []), p.data⟩

theorem row_entry {R : List Entry} : ∀ {ps : List Piece}, R.map entryRow = ps.map Piece.row → R = ps.map pieceEntry := by
  induction R with
  | nil =>
    intro ps h
    cases ps with
    | nil => rfl
    | cons _ _ => simp at h
  | cons e t ih =>
    intro ps h
    cases ps with
    | nil => simp at h
    | cons p ps =>
      simp only [List.map_cons, List.cons.injEq] at h
      rw [List.map_cons, ← ih h.2]
      congr 1
      have h1 := h.1
      unfold entryRow Piece.row at h1
      simp only [Prod.mk.injEq] at h1
      obtain ⟨a1, a2, a3, a4⟩ := h1
      unfold pieceEntry
      rw [← a1, ← a2, ← a3, ← a4]

/-- The entries an SRR has for a volume. -/
def volumeEntries (x : Str × Bytes) : Str × List Entry := (x.1, (volumePieces x.2).map pieceEntry)

/-- The list does not begin in a volume. -/
def Outside (T : List Entry) : Prop := ∀ e ∈ T.head?, e.inVolume = false

theorem in_volume {data : Bytes} (hg : GoodVolume data) : ∀ p ∈ volumePieces data, (pieceEntry p).inVolume = true ∧
    ∀ n, (pieceEntry p).kind ≠ .rarFile n := by
  obtain ⟨hm, tr, htr, hres⟩ := hg
  intro p hp
  unfold volumePieces at hp
  rw [htr] at hp
  have hvt := volTiles_of_read hm htr
  cases p with
  | stored _ _ => unfold tracePieces at hp; obtain ⟨y, _, hy⟩ := List.mem_map.1 hp; split at hy <;> cases hy
  | rarFile _ => unfold tracePieces at hp; obtain ⟨y, _, hy⟩ := List.mem_map.1 hp; split at hy <;> cases hy
  | oso _ _ _ => unfold tracePieces at hp; obtain ⟨y, _, hy⟩ := List.mem_map.1 hp; split at hy <;> cases hy
  | padding _ => exact ⟨rfl, fun n h => by simp [pieceEntry, Piece.kind] at h⟩
  | rar b =>
    obtain ⟨h1, h2⟩ := restorable_complete hvt hres b hp
    refine ⟨?_, ?_⟩
    · show (b.btype != 0x69 && b.btype != 0x6A && b.btype != 0x6B && b.btype != 0x71) = true
      simp only [Bool.and_eq_true, bne_iff_ne]
      omega
    · intro n hn
      have := complete_type_rarFile h1 hn
      omega

theorem takeWhile_all {α : Type} {p : α → Bool} (l t : List α) (h : ∀ x ∈ l, p x = true) : (l ++ t).takeWhile p = l ++ t.takeWhile p := by
  induction l with
  | nil => rfl
  | cons x l ih =>
    rw [List.cons_append, List.takeWhile_cons_of_pos (h x (by simp)), ih (fun x hx => h x (by simp [hx]))]
    rfl

theorem takeWhile_outside {T : List Entry} (h : Outside T) : T.takeWhile Entry.inVolume = [] := by
  cases T with
  | nil => rfl
  | cons e t => rw [List.takeWhile_cons_of_neg (by simp [h e (by simp)])]

theorem volumesOf_skip (s t : List Entry) (h : ∀ e ∈ s, ∀ n, e.kind ≠ .rarFile n) : volumesOf (s ++ t) = volumesOf t := by
  induction s with
  | nil => rfl
  | cons e s ih =>
    rw [List.cons_append, volumesOf.eq_def]
    dsimp only
    split
    · rename_i n hn
      exact absurd hn (h e (by simp) n)
    · exact ih (fun e he => h e (by simp [he]))

theorem volumesOf_volumes {vols : List (RarIn × Bytes)} {T : List Entry} (hT : Outside T) (hg : ∀ v ∈ vols, GoodVolume v.2) :
    Outside ((volumesPieces vols).map pieceEntry ++ T) ∧
    volumesOf ((volumesPieces vols).map pieceEntry ++ T) = (vols.map fun v => volumeEntries (volumeOf v)) ++ volumesOf T := by
  induction vols with
  | nil => exact ⟨hT, rfl⟩
  | cons v t ih =>
    obtain ⟨i1, i2⟩ := ih (fun v hv => hg v (by simp [hv]))
    have hsplit : (volumesPieces (v :: t)).map pieceEntry ++ T =
        pieceEntry (.rarFile v.1.name) :: ((volumePieces v.2).map pieceEntry ++ ((volumesPieces t).map pieceEntry ++ T)) := by
      unfold volumesPieces
      rw [List.flatMap_cons]
      simp
    have hin : ∀ e ∈ (volumePieces v.2).map pieceEntry, e.inVolume = true ∧ ∀ n, e.kind ≠ .rarFile n := by
      intro e he
      obtain ⟨p, hp, rfl⟩ := List.mem_map.mp he
      exact in_volume (hg v (by simp)) p hp
    rw [hsplit]
    refine ⟨?_, ?_⟩
    · intro e he
      simp only [List.head?_cons, Option.mem_def, Option.some.injEq] at he
      subst he
      rfl
    · have hk : (pieceEntry (.rarFile v.1.name)).kind = .rarFile v.1.name := rfl
      rw [volumesOf.eq_def]
      dsimp only
      rw [hk]
      dsimp only
      rw [takeWhile_all _ _ (fun e he => (hin e he).1), takeWhile_outside i1, List.append_nil,
        volumesOf_skip _ _ (fun e he => (hin e he).2), i2]
      rfl

theorem volumesOf_body {gs : Groups} {T : List Entry} (hT : Outside T) (hg : gs.Good) :
    Outside (gs.body.map pieceEntry ++ T) ∧
    volumesOf (gs.body.map pieceEntry ++ T) = ((gs.flatMap (·.1)).map fun v => volumeEntries (volumeOf v)) ++ volumesOf T := by
  induction gs with
  | nil => exact ⟨hT, rfl⟩
  | cons g t ih =>
    obtain ⟨i1, i2⟩ := ih hg.tail
    have hsplit : (Groups.body (g :: t)).map pieceEntry ++ T =
        (volumesPieces g.1).map pieceEntry ++ (g.2.map pieceEntry ++ (Groups.body t |>.map pieceEntry) ++ T) := by
      unfold Groups.body
      rw [List.flatMap_cons]
      simp
    have hos : ∀ e ∈ g.2.map pieceEntry, e.inVolume = false ∧ ∀ n, e.kind ≠ .rarFile n := by
      intro e he
      obtain ⟨p, hp, rfl⟩ := List.mem_map.mp he
      obtain ⟨_, _, _, rfl⟩ := hg.osos g (by simp) p hp
      exact ⟨rfl, fun n h => by simp [pieceEntry, Piece.kind] at h⟩
    have ho : Outside (g.2.map pieceEntry ++ (Groups.body t |>.map pieceEntry) ++ T) := by
      rw [List.append_assoc]
      cases hx : g.2.map pieceEntry with
      | nil => exact i1
      | cons x r =>
        intro e he
        simp only [List.cons_append, List.head?_cons, Option.mem_def, Option.some.injEq] at he
        subst he
        exact (hos x (by rw [hx]; simp)).1
    obtain ⟨j1, j2⟩ := volumesOf_volumes ho (hg.vols g (by simp))
    rw [hsplit]
    refine ⟨j1, ?_⟩
    rw [j2, List.append_assoc (g.2.map pieceEntry), volumesOf_skip _ _ (fun e he => (hos e he).2), i2, List.flatMap_cons, List.map_append]
    simp

/-- The blocks of a volume can be reported. -/
theorem volume_reportable {data : Bytes} (tr : List (Block × Nat)) : ∀ (a0 : Nat), VolTiles data tr a0 → (∀ x ∈ tr, Restorable data x.1 x.2) →
    (∀ x ∈ tr, UsualSize x.1) → ∀ p ∈ tracePieces tr, (pieceEntry p).Reportable := by
  induction tr with
  | nil => intro a0 _ _ _ p hp; simp [tracePieces] at hp
  | cons x t ih =>
    intro a0 hv hr hu p hp
    obtain ⟨b, e⟩ := x
    unfold tracePieces at hp
    rw [List.map_cons] at hp
    rcases List.mem_cons.mp hp with rfl | hp
    · by_cases ht : IsTail data b
      · obtain ⟨h1, h2, h3, h4, h5⟩ := hv
        rcases h4 with ⟨t1, t2, _⟩ | ⟨f1, _⟩
        · rw [if_pos (by exact t2)]
          refine ⟨fun h => ?_, fun h => ?_, fun h => ?_, fun h => ?_⟩ <;> simp [pieceEntry, Piece.btype] at h
        · exact absurd ht f1
      · obtain ⟨g1, g2, g3, g4, g5⟩ := block_span hv ht (hr (b, e) (by simp)) (hu (b, e) (by simp))
        rw [if_neg (by exact g4)]
        refine ⟨fun h => ?_, fun h => ?_, fun h => ?_, fun h => ?_⟩
        · have h : b.btype = 0x71 := h
          omega
        · exact g3.2.2.2.1 h
        · have h : b.btype = 0x6B := h
          omega
        · obtain ⟨f, rr, hk, hs⟩ := g3.2.2.2.2.1 h
          refine ⟨f, rr, hk, fun rs ds hrr => ?_⟩
          rw [← complete_newSub_size g1 h hk]
          exact hs rs ds hrr
    · exact ih e hv.2.2.2.2 (fun x hx => hr x (List.mem_cons_of_mem _ hx)) (fun x hx => hu x (List.mem_cons_of_mem _ hx)) p hp

/-- All entries can be reported. -/
theorem body_reportable {gs : Groups} {x : Bytes} (hg : gs.Good) (hw : writePieces gs.body = .ok x)
    (hu : ∀ v ∈ gs.flatMap (·.1), ∀ tr, readTrace v.2 = .ok tr → ∀ x ∈ tr, UsualSize x.1) :
    ∀ p ∈ gs.body, (pieceEntry p).Reportable := by
  have hraw : ∀ (ps : List Piece) (x : Bytes), writePieces ps = .ok x → ∀ p ∈ ps, ∃ r, p.raw = .ok r := by
    intro ps
    induction ps with
    | nil => simp
    | cons q t ih =>
      intro x h p hp
      simp only [writePieces, bind_eq_ok] at h
      obtain ⟨r, h1, y, h2, _⟩ := h
      rcases List.mem_cons.mp hp with rfl | hp
      · exact ⟨r, h1⟩
      · exact ih y h2 p hp
  intro p hp
  obtain ⟨r, hr⟩ := hraw _ _ hw p hp
  unfold Groups.body at hp
  obtain ⟨g, hgm, hp⟩ := List.mem_flatMap.mp hp
  rcases List.mem_append.mp hp with hp | hp
  · unfold volumesPieces at hp
    obtain ⟨v, hv, hp⟩ := List.mem_flatMap.mp hp
    rcases List.mem_cons.mp hp with rfl | hp
    · refine ⟨fun _ => ⟨⟨_, rfl⟩, ?_⟩, fun h => ?_, fun h => ?_, fun h => ?_⟩
      · have hr : mkRarFile v.1.name = .ok r := hr
        have he : (pieceEntry (.rarFile v.1.name)).raw = r := by simp [pieceEntry, Piece.raw, hr]
        have := (complete_fields (complete_rarFile hr).1).2.2
        have hl := unpackAt_ofLe this
        unfold Entry.header
        rw [he]
        have hl' : ofLe (slice r 5 7) = r.length := hl
        rw [hl', List.take_length]
      all_goals simp [pieceEntry, Piece.btype] at h
    · obtain ⟨hm, tr, htr, hres⟩ := hg.vols g hgm v hv
      unfold volumePieces at hp
      rw [htr] at hp
      exact volume_reportable tr 0 (volTiles_of_read hm htr) hres (hu v (List.mem_flatMap.mpr ⟨g, hgm, hv⟩) tr htr) p hp
  · obtain ⟨s, h, n, rfl⟩ := hg.osos g hgm p hp
    refine ⟨fun h => ?_, fun h => ?_, fun _ => ⟨s, h, n, rfl⟩, fun h => ?_⟩ <;> simp [pieceEntry, Piece.btype] at h

theorem history_contents {oso : Bool} {k : Kept} {srr : Bytes} (h : MadeSrr oso k srr) (hne : k.vols ≠ [])
    (hu : ∀ v ∈ k.vols, ∀ tr, readTrace v.2 = .ok tr → ∀ x ∈ tr, UsualSize x.1) :
    ∃ c, Contents srr c ∧ (∀ e ∈ c, e.Reportable) ∧ volumesOf c = (k.vols.map volumeOf).map volumeEntries ∧
      (storedIn c).all = k.files := by
  obtain ⟨⟨gs, hg, hvs, _, hw⟩, _⟩ := history_groups h
  obtain ⟨hd, S, R, c1, hc, hsh, hf, m2, h69⟩ := written_shape hw hg (body_length hg hw (by rw [hvs]; exact hne))
  have hR := row_entry m2
  have hrep := body_reportable hg (entries_write m2) (by rw [hvs]; exact hu)
  have hST : ∀ e ∈ S, e.btype = 0x6A ∧ ∀ n, e.kind ≠ .rarFile n := by
    intro e he
    refine ⟨canon_type (hsh.stored e he), ?_⟩
    obtain ⟨n, d, raw, _, rfl⟩ := hsh.stored e he
    intro m hm
    simp at hm
  refine ⟨_, hc, ?_, ?_, ?_⟩
  · intro e he
    rcases List.mem_cons.mp he with rfl | he
    · refine ⟨fun h => ?_, fun h => ?_, fun h => ?_, fun h => ?_⟩ <;> simp at h
    · rcases List.mem_append.mp he with he | he
      · exact stored_reportable (hST e he).1
      · rw [hR] at he
        obtain ⟨p, hp, rfl⟩ := List.mem_map.mp he
        exact hrep p hp
  · have := (volumesOf_body (T := []) (by simp [Outside]) hg).2
    rw [List.append_nil, show volumesOf [] = [] from rfl, List.append_nil, hvs] at this
    rw [← List.cons_append, volumesOf_skip _ _ (by
        intro e he
        rcases List.mem_cons.mp he with rfl | he
        · intro n hn
          simp at hn
        · exact (hST e he).2), hR, this, List.map_map]
    rfl
  · rw [storedIn_all, ← hf, List.filterMap_cons_none (by rfl), List.filterMap_append]
    have : R.filterMap storedFile = [] := by
      rw [List.filterMap_eq_nil_iff]
      intro e he
      unfold storedFile
      split
      · rw [if_neg (hsh.other e he)]
      · rfl
    rw [this, List.append_nil]

/-- C114: the content hash does not depend on the history.  Two SRR files that come from any creations, edits and merges of the same
volumes, in whatever order, with whatever stored files, application names and OSO hashes, have the same content hash, when no two
volumes have the same base name. -/
theorem history_hash {lower upper : Str → Str} {hash : Bytes → Str} {oso oso' : Bool} {k k' : Kept} {srr srr' : Bytes}
    (h : MadeSrr oso k srr) (h' : MadeSrr oso' k' srr') (hne : k.vols ≠ [])
    (hu : ∀ v ∈ k.vols, ∀ tr, readTrace v.2 = .ok tr → ∀ x ∈ tr, UsualSize x.1)
    (hsame : (k'.vols.map volumeOf).Perm (k.vols.map volumeOf))
    (hkeys : (k.vols.map fun v => volumeKey lower v.1.name).Nodup) :
    contentHash lower upper hash srr' = contentHash lower upper hash srr := by
  obtain ⟨c, h1, h2, h3, _⟩ := history_contents h hne hu
  have hne' : k'.vols ≠ [] := by
    intro hc
    rw [hc] at hsame
    exact hne (by simpa using hsame.symm.eq_nil)
  obtain ⟨c', g1, g2, g3, _⟩ := history_contents h' hne' (by
    intro v hv
    have : volumeOf v ∈ k.vols.map volumeOf := hsame.mem_iff.mp (List.mem_map_of_mem hv)
    obtain ⟨w, hw, hwv⟩ := List.mem_map.mp this
    unfold volumeOf at hwv
    simp only [Prod.mk.injEq] at hwv
    rw [← hwv.2]
    exact hu w hw)
  refine content_hash_same h1 h2 g1 g2 ?_ ?_
  · rw [h3, List.map_map, List.map_map]
    exact hkeys
  · rw [h3, g3]
    exact hsame.map _

/-- C114: the hash is that of the blocks of the volumes, sorted by their base names in lower case. -/
theorem history_hash_is {lower upper : Str → Str} {hash : Bytes → Str} {oso : Bool} {k : Kept} {srr : Bytes} {sorted : List (Str × Bytes)}
    (h : MadeSrr oso k srr) (hne : k.vols ≠ []) (hu : ∀ v ∈ k.vols, ∀ tr, readTrace v.2 = .ok tr → ∀ x ∈ tr, UsualSize x.1)
    (hkeys : (k.vols.map fun v => volumeKey lower v.1.name).Nodup) (hperm : sorted.Perm (k.vols.map volumeOf))
    (hsorted : sorted.Pairwise fun v w => volumeKey lower v.1 ≤ volumeKey lower w.1) :
    contentHash lower upper hash srr = .ok (hash (sorted.flatMap fun v => hashed (volumeEntries v).2)) := by
  obtain ⟨c, h1, h2, h3, _⟩ := history_contents h hne hu
  have := content_hash_is (upper := upper) (hash := hash) (sorted := sorted.map volumeEntries) h1 h2 (lower := lower)
    (by
      rw [h3, List.map_map, List.map_map]
      exact hkeys)
    (by
      rw [h3]
      exact hperm.map _)
    (by
      rw [List.pairwise_map]
      exact hsorted)
  rw [this, List.flatMap_map]

/-- C114: extracting all stored files from the result of any history writes for every file that the history leaves exactly its bytes, at
a path that is new (of several files with one path the first counts), and changes no other file. -/
theorem history_all_extracted {oso : Bool} {k : Kept} {srr : Bytes} (h : MadeSrr oso k srr) (hl : 20 ≤ srr.length)
    {p : Path} {fs : FS} {ask : Path → Bool} {a : ExtractArgs} {out : Str → Path}
    (hs : fs p = some srr) (ha : a.packedName = []) (hm : a.matcher = none) (hask : ∀ p, ask p = false)
    (hnames : ∀ f ∈ k.files, opath f.1 a.extractPaths a.outFolder = .ok (out f.1) ∧ (osFileNameSrr f.1).isOk = true) :
    ∃ fs' rs, extractFiles p ask a fs = (fs', .ok rs) ∧ rs.map (·.1) = k.files.map (fun f => out f.1) ∧
      (∀ q, q ∉ k.files.map (fun f => out f.1) → fs' q = fs q) ∧
      ∀ s1 n d s2, k.files = s1 ++ (n, d) :: s2 → out n ∉ s1.map (fun f => out f.1) → fs (out n) = none → fs' (out n) = some d := by
  obtain ⟨⟨gs, hg, hvs, _, hw⟩, _⟩ := history_groups h
  obtain ⟨hd, S, R, c1, hc, hsh, hf, m2, _⟩ := written_shape hw hg hl
  refine history_extracted (es := []) hc hs (.none fs) hs hl ?_ ha hm hask hnames
  rw [List.foldl_nil, storedIn_all, ← hf, List.filterMap_cons_none (by rfl), List.filterMap_append]
  have : R.filterMap storedFile = [] := by
    rw [List.filterMap_eq_nil_iff]
    intro e he
    unfold storedFile
    split
    · rw [if_neg (hsh.other e he)]
    · rfl
  rw [this, List.append_nil]

end Rescene.Props
