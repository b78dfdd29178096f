import Verif.Lemmas.MovRebuild
/-
C40: MP4 samples are stripped and rebuilt.
-/
namespace Rescene.Props
open Rescene Rescene.Spec

theorem metaLength_append (a b : List MovPart) : metaLength (a ++ b) = metaLength a + metaLength b := by
  simp [metaLength]

theorem metaLength_eq {parts : List MovPart} (h : ∀ p ∈ parts, ∀ form data, p = .leaf form mdatType data → data = []) :
    metaLength parts = (movBytes parts).length := by
  induction parts with
  | nil => rfl
  | cons p ps ih =>
    have ih := ih fun q hq => h q (by simp [hq])
    rw [movBytes_cons, List.length_append, ← ih]
    simp only [metaLength, List.map_cons, List.sum_cons]
    congr 1
    cases p with
    | enter form type n => rfl
    | leaf form type data =>
      simp only [MovPart.bytes, List.length_append]
      split
      · rename_i hty
        subst hty
        rw [h _ (by simp) form data rfl]
        rfl
      · rfl

/-- Only the one "mdat" has data. -/
theorem plain_meta {before after : List MovTop} {form : MovForm} {media : Bytes} {tracks : List MovLayout}
    (hp : PlainMp4 before form media after tracks) :
    metaLength (flatten (before ++ .box form mdatType media :: after)) + media.length = (mp4Bytes before form media after).length := by
  have hpart : ∀ ts : List MovTop, (∀ t ∈ ts, t ∈ before ++ .box form mdatType media :: after) →
      (∀ t ∈ ts, t.type = mdatType → t.body = []) →
      ∀ p ∈ flatten ts, ∀ form data, p = .leaf form mdatType data → data = [] := by
    intro ts hsub hb p hpm form' data e
    obtain ⟨t, ht, hpt⟩ := List.mem_flatMap.1 hpm
    cases t with
    | box f ty d =>
      simp only [MovTop.flat, List.mem_singleton] at hpt
      rw [e] at hpt
      injection hpt with _ h2 h3
      have := hb _ ht h2.symm
      rw [h3]; exact this
    | tree f ty inner =>
      simp only [MovTop.flat, List.mem_cons] at hpt
      rcases hpt with h | h
      · rw [e] at h; simp at h
      · exact absurd (by rw [e]; rfl) ((hp.ok.inner f ty inner (hsub _ ht)).2 p h)
  have h1 := metaLength_eq (hpart before (fun t ht => by simp [ht]) fun t ht he => absurd he (hp.first t ht))
  have h2 := metaLength_eq (hpart after (fun t ht => by simp [ht]) hp.only)
  unfold mp4Bytes topBytes
  rw [flatten_append, flatten_cons, metaLength_append, metaLength_append, movBytes_append, movBytes_append, h1, h2]
  simp only [MovTop.flat, metaLength, movBytes, MovPart.bytes, List.map_cons, List.map_nil, List.sum_cons, List.sum_nil,
    List.flatMap_cons, List.flatMap_nil, List.append_nil, List.length_append, if_true]
  omega

theorem pieces_sum (tracks : List MovLayout) :
    ((pieces tracks).map (·.2)).sum = (tracks.map fun t => (t.chunks.flatMap (·.2)).sum).sum := by
  have hz : ∀ l : List (Nat × Nat), ((l.filter fun c => c.2 ≠ 0).map (·.2)).sum = (l.map (·.2)).sum := by
    intro l
    induction l with
    | nil => rfl
    | cons c l ih =>
      by_cases h : c.2 = 0
      · rw [List.filter_cons_of_neg (by simp [h]), ih, List.map_cons, List.sum_cons, h]; omega
      · rw [List.filter_cons_of_pos (by simp [h]), List.map_cons, List.sum_cons, ih, List.map_cons, List.sum_cons]
  unfold pieces
  rw [hz, List.map_flatMap]
  induction tracks with
  | nil => rfl
  | cons t ts ih =>
    rw [List.flatMap_cons, List.sum_append, ih, List.map_cons, List.sum_cons]
    congr 1
    induction t.chunks with
    | nil => rfl
    | cons c cs ihc => simp only [List.map_cons, List.sum_cons, List.flatMap_cons, List.sum_append, ihc]

/-- What is remembered of a track. -/
theorem areTracks_map {file : Bytes} : ∀ {L : List (Nat × MovTrack)} {tracks : List MovLayout}, AreTracks file L tracks →
    (L.map fun x => (x.1, ({ number := x.1, dataLength := x.2.dataLength, sig := x.2.sig } : TrackData))) =
      tracks.map fun t => (t.id, { number := t.id, dataLength := (layoutData file t).length, sig := (layoutData file t).take 256 })
  | [], [], _ => rfl
  | (n, m) :: l, t :: ts, h => by
    obtain ⟨h1, h2, h3⟩ := h
    rw [List.map_cons, List.map_cons, areTracks_map h3]
    dsimp only
    rw [h1, h2.length, h2.sig]
  | [], _ :: _, h => h.elim
  | _ :: _, [], h => h.elim

theorem areTracks_sum {file : Bytes} : ∀ {L : List (Nat × MovTrack)} {tracks : List MovLayout}, AreTracks file L tracks →
    (L.map (·.2.dataLength)).sum = (tracks.map fun t => (layoutData file t).length).sum
  | [], [], _ => rfl
  | (n, m) :: l, t :: ts, h => by
    obtain ⟨_, h2, h3⟩ := h
    rw [List.map_cons, List.map_cons, List.sum_cons, List.sum_cons, areTracks_sum h3]
    dsimp only
    rw [h2.length]
  | [], _ :: _, h => h.elim
  | _ :: _, [], h => h.elim

/-- An MP4 file whose "mdat" is exactly the chunks of its tracks is accepted as a sample: its CRC is
calculated, and length and first bytes of each track are found. -/
theorem mp4_profiled {before after : List MovTop} {form : MovForm} {media : Bytes} {tracks : List MovLayout}
    (hp : PlainMp4 before form media after tracks) :
    mp4Profile (mp4Bytes before form media after) = .ok (crc32 (mp4Bytes before form media after) 0,
      tracks.map fun t => (t.id,
        { number := t.id
          dataLength := (layoutData (mp4Bytes before form media after) t).length
          sig := (layoutData (mp4Bytes before form media after) t).take 256 })) := by
  obtain ⟨c, o, m, L, cur, p, h1, h2, h3⟩ := movProfile_ok (crc := true) hp.ok.ok hp.ok.ends
    (flatten_fits fun f ty i hi => (hp.ok.inner f ty i hi).1) hp.size hp.tables hp.inside
  obtain ⟨h3, h4⟩ := h3 rfl
  obtain ⟨l, hl, hc⟩ := hp.tiles
  have hsum : (tracks.map fun t => (layoutData (mp4Bytes before form media after) t).length).sum = media.length := by
    have e1 : (tracks.map fun t => (layoutData (mp4Bytes before form media after) t).length) =
        tracks.map fun t => (t.chunks.flatMap (·.2)).sum := List.map_congr_left fun t ht => layout_length (hp.inside t ht)
    rw [e1, ← pieces_sum, ← (hl.map (·.2)).sum_nat, (consecutive_data [] l _ _ hc).2.2]
    omega
  have hm := plain_meta hp
  have ht : o + (L.map (·.2.dataLength)).sum = (mp4Bytes before form media after).length := by
    rw [h4, areTracks_sum h2, ← hm, ← hsum]; rfl
  unfold mp4Profile
  rw [show movProfile true (mp4Bytes before form media after) = _ from h1, ok_bind]
  dsimp only
  rw [ht]
  simp only [Nat.lt_irrefl, false_and, if_false, ne_eq, not_true_eq_false]
  rw [areTracks_map h2, h3]
  rfl

theorem piece_layout (file : Bytes) (t : MovLayout) : (trackPieces t).flatMap (pieceData file) = layoutData file t := by
  unfold trackPieces layoutData
  rw [List.flatMap_map]
  rfl

theorem order_mem {tracks : List MovLayout} {c : Nat × Nat × Nat} (h : c ∈ orderOf tracks) : ∃ t ∈ tracks, c ∈ trackPieces t := by
  have := (sortChunks_perm (tracks.flatMap trackPieces)).mem_iff.1 h
  exact List.mem_flatMap.1 this

/-- The rebuilt file, from an SRS with our atoms. -/
theorem mp4_rebuilds {before after : List MovTop} {form : MovForm} {media : Bytes} {tracks : List MovLayout}
    (hp : PlainMp4 before form media after tracks) {f : Bytes} {ds : List Bytes} {big : Bool} {trk ts : Tracks}
    (hf : 8 + f.length < 2 ^ 32) (hd : OwnTracks4 big trk ds) {files : TrackFiles}
    (hbig : (movBytes ((before ++ .box form mdatType media :: after).flatMap (srsTop (ownAtoms f ds)))).length < 2 ^ 63)
    (hts : ts.map (·.1) = tracks.map (·.id))
    (hfiles : ∀ t ∈ tracks, files t.id = some (layoutData (mp4Bytes before form media after) t)) :
    mp4Rebuild (movBytes ((before ++ .box form mdatType media :: after).flatMap (srsTop (ownAtoms f ds)))) ts files =
      .ok (mp4Bytes before form media after, crc32 (mp4Bytes before form media after) 0) := by
  obtain ⟨g, hg1, hg2⟩ := mp4SrsTables_ok (ids := ts.map (·.1)) hf hd hp.ok hp.tables
    (by rw [hts]; exact fun t ht => List.mem_map.2 ⟨t, ht, rfl⟩) hbig
  obtain ⟨l, hl, hc⟩ := hp.tiles
  have hcont : (orderOf tracks).flatMap (pieceData (mp4Bytes before form media after)) = media := by
    rw [order_data hl hc]
    unfold mp4Bytes
    rw [topBytes_append, topBytes_cons, ← List.append_assoc, List.drop_left' (by simp [MovTop.form, MovTop.type, MovTop.body]),
      List.take_left' (by simp [MovTop.body])]
    rfl
  have hsu : ∀ p ∈ (before ++ .box form mdatType media :: after).flatMap (srsTop (ownAtoms f ds)), Suits rebuildHow p := by
    refine srsTop_suits (ownAtoms_suits hf hd (by decide) (by decide)) hp.ok.ok (by decide) ?_
    intro ty hty
    unfold rebuildHow
    split
    · simp
    · rw [if_neg (show ¬ ty = aMdat from hty)]; simp
  have hown1 : ∀ t ∈ before, t.type ∉ ownTypes := fun t ht => hp.own t (by simp [ht])
  have hown2 : ∀ t ∈ after, t.type ∉ ownTypes := fun t ht => hp.own t (by simp [ht])
  obtain ⟨fl1, h1, h1'⟩ := rebuild_rest (order := orderOf tracks) (f := f) (ds := ds) (s := ⟨[], 0, files⟩) hown1
    (fun t ht he => absurd he (hp.first t ht))
  rw [h1' hp.first] at h1
  -- the stream data
  obtain ⟨fl2, h2, h2', _⟩ := write_chunks (file := mp4Bytes before form media after) (order := orderOf tracks)
    (s := ⟨topBytes before ++ movHeader form mdatType media.length,
      crc32 (movHeader form mdatType media.length) (crc32 (topBytes before) 0), files⟩)
    (by
      intro c hc
      obtain ⟨t, ht, hct⟩ := order_mem hc
      obtain ⟨ch, hch, rfl⟩ := List.mem_map.1 hct
      exact hp.inside t ht ch hch)
    (by
      intro c hc
      obtain ⟨t, ht, hct⟩ := order_mem hc
      have : c.2.2 = t.id := by
        obtain ⟨ch, hch, rfl⟩ := List.mem_map.1 hct
        rfl
      rw [this, order_filter hp.tables.distinct ht (hp.ordered t ht), piece_layout]
      exact hfiles t ht)
  rw [hcont] at h2
  have hmid : (srsTop (ownAtoms f ds) (.box form mdatType media)).foldlM (rebuildStep (orderOf tracks))
      ⟨topBytes before, crc32 (topBytes before) 0, files⟩ =
      .ok ⟨topBytes before ++ movHeader form mdatType media.length ++ media,
        crc32 media (crc32 (movHeader form mdatType media.length) (crc32 (topBytes before) 0)), fl2⟩ := by
    have es : srsTop (ownAtoms f ds) (.box form mdatType media) = ownAtoms f ds ++ [.enter form mdatType media.length] := by
      unfold srsTop; rw [if_pos (show MovTop.type (.box form mdatType media) = mdatType from rfl)]; rfl
    rw [es, List.foldlM_append, rebuild_own4, ok_bind, List.foldlM_cons]
    unfold rebuildStep
    dsimp only
    rw [h2]
    rfl
  obtain ⟨fl3, h3, _⟩ := rebuild_rest (order := orderOf tracks) (f := f) (ds := ds)
    (s := ⟨topBytes before ++ movHeader form mdatType media.length ++ media,
        crc32 media (crc32 (movHeader form mdatType media.length) (crc32 (topBytes before) 0)), fl2⟩) hown2
    (fun t ht he => ⟨hp.only t ht he, h2'⟩)
  have hw : movWalk .srs rebuildHow (movBytes ((before ++ .box form mdatType media :: after).flatMap (srsTop (ownAtoms f ds))))
      (mp4RebuildItem (orderOf tracks)) ⟨[], 0, files⟩ =
      .ok ⟨mp4Bytes before form media after, crc32 (mp4Bytes before form media after) 0, fl3⟩ := by
    rw [movWalk_parts hsu hbig (srsTop_ends ownAtoms_sized (topEnds_of hp.ok.top)) (by intro h; simp at h),
      items_fold (g := rebuildStep (orderOf tracks)) fun p hpm pos s => rebuild_step (hsu p hpm) _ pos s,
      List.flatMap_append, List.flatMap_cons, List.foldlM_append, h1, ok_bind, List.foldlM_append]
    simp only [List.nil_append]
    rw [hmid, ok_bind, h3]
    unfold mp4Bytes
    rw [topBytes_append, topBytes_cons]
    simp only [MovTop.form, MovTop.type, MovTop.body, List.append_assoc, crc32_append]
  unfold mp4Rebuild
  rw [hg1, ok_bind, mp4Streams_ok hts (fun t ht => by rw [hfiles t ht]; simp) hg2, ok_bind, orderChunks_eq]
  exact congrArg (fun r => r >>= _) hw

/-- The SRS that is created, with any track information. -/
theorem mp4_srs_rebuilds {before after : List MovTop} {form : MovForm} {media : Bytes} {tracks : List MovLayout}
    (hp : PlainMp4 before form media after tracks) {app name : Str} {size crc : Nat} {big : Bool} {trk : Tracks} {srs : Bytes}
    (htrk : ∀ p ∈ trk, p.1 = p.2.number ∧ p.2.number < 2 ^ 16 ∧ p.2.flags = 0)
    (hpw : trk.Pairwise (fun a b => a.1 ≠ b.1))
    (h : mp4CreateSrs app name size crc trk big (mp4Bytes before form media after) = .ok srs) (hbig : srs.length < 2 ^ 63) :
    mp4LoadSrs srs = .ok (⟨3, app, basename name, size, crc % 2 ^ 32⟩, trk.map fun p => (p.1, readTrack big p.2)) ∧
    ∀ (ts : Tracks) (files : TrackFiles), ts.map (·.1) = tracks.map (·.id) →
      (∀ t ∈ tracks, files t.id = some (layoutData (mp4Bytes before form media after) t)) →
      mp4Rebuild srs ts files = .ok (mp4Bytes before form media after, crc32 (mp4Bytes before form media after) 0) := by
  have hmd : ∃ t ∈ before ++ .box form mdatType media :: after, t.type = mdatType := ⟨.box form mdatType media, by simp, rfl⟩
  have htop := topEnds_of hp.ok.top
  unfold mp4Bytes at h
  rw [mp4Create_eq hp.ok.ok htop hp.size] at h
  cases hown : mp4SrsAtoms app name size crc trk big with
  | error e =>
    rw [hown, create_fold4_error hmd] at h
    simp at h
  | ok b =>
    obtain ⟨f, ds, hfp, hfl, hds, rfl⟩ := srsAtoms_ok htrk hown
    rw [hown, create_fold4] at h
    injection h with h
    rw [List.nil_append] at h
    subst h
    have hnown : ∀ t ∈ before ++ .box form mdatType media :: after, t.type ∉ ownTypes := by
      intro t ht
      simp only [List.mem_append, List.mem_cons] at ht
      rcases ht with ht | rfl | ht
      · exact hp.own t (by simp [ht])
      · show mdatType ∉ ownTypes
        decide
      · exact hp.own t (by simp [ht])
    exact ⟨mp4Load_ok hds hfp hfl hpw hnown hp.ok.ok htop hmd hbig, fun ts files hts hfiles => mp4_rebuilds hp hfl hds hbig hts hfiles⟩

/-- C40, all but the search for the data of the tracks in another file.  For every MP4 file that is a
sequence of well-formed atoms of any form and order, with any tracks whose chunks, in any interleaving,
make up its media data: when an SRS is created, reading it gives the name, size and CRC of the sample
and, for exactly its tracks, length and first bytes; and rebuilding from it with files of the data of
the tracks gives the sample back, byte for byte. -/
theorem mp4_strip_rebuild_partial {before after : List MovTop} {form : MovForm} {media : Bytes} {tracks : List MovLayout}
    (hp : PlainMp4 before form media after tracks) (hid : ∀ t ∈ tracks, t.id < 2 ^ 16) {app name : Str} {big : Bool} {srs : Bytes}
    (h : srsMp4Create app name (mp4Bytes before form media after) big none = .ok srs) (hbig : srs.length < 2 ^ 63) :
    mp4LoadSrs srs = .ok (⟨3, app, basename name, (mp4Bytes before form media after).length,
        (crc32 (mp4Bytes before form media after) 0).toNat⟩,
      tracks.map fun t => (t.id,
        { flags := if big then 4 else 0
          number := t.id
          dataLength := (layoutData (mp4Bytes before form media after) t).length
          matchOffset := 0
          sig := (layoutData (mp4Bytes before form media after) t).take 256 })) ∧
    ∀ (ts : Tracks) (files : TrackFiles), ts.map (·.1) = tracks.map (·.id) →
      (∀ t ∈ tracks, files t.id = some (layoutData (mp4Bytes before form media after) t)) →
      mp4Rebuild srs ts files = .ok (mp4Bytes before form media after, crc32 (mp4Bytes before form media after) 0) := by
  unfold srsMp4Create at h
  split at h
  · simp at h
  · rw [mp4_profiled hp, ok_bind] at h
    dsimp only at h
    split at h
    · simp at h
    · change mp4CreateSrs _ _ _ _ _ _ _ = _ at h
      obtain ⟨h1, h2⟩ := mp4_srs_rebuilds hp (by
          intro p hpm
          obtain ⟨t, ht, rfl⟩ := List.mem_map.1 hpm
          exact ⟨rfl, hid t ht, rfl⟩) (by
          rw [List.pairwise_map]
          exact hp.tables.distinct) h hbig
      refine ⟨?_, h2⟩
      rw [h1, Nat.mod_eq_of_lt (BitVec.isLt _), List.map_map]
      congr 2
      refine List.map_congr_left fun t _ => ?_
      cases big <;> simp [readTrack]

end Rescene.Props
