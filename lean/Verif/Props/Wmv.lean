import Verif.Lemmas.WmvRebuild
/-
C67: WMV samples are rebuilt from their SRS and the data of the streams.
-/
namespace Rescene.Props
open Rescene Spec

theorem padding_short {w : WmvFile} (h : w.Ok) : 24 + (paddingOf w.packets).length < 2 ^ 63 := by
  have h1 := h.size
  have h2 : (paddingOf w.packets).length ≤ (w.packets.flatMap WmvPacket.bytes).length := by
    unfold paddingOf
    generalize w.packets = ps
    induction ps with
    | nil => simp
    | cons p ps ih =>
      simp only [List.flatMap_cons, List.length_append, WmvPacket.bytes] at ih ⊢
      omega
  have h3 := dataHead_length h
  simp only [WmvFile.bytes, List.length_append] at h1
  omega

/-- The SRS of a sample made with these tracks, read and used for rebuilding. -/
theorem wmv_srs_rebuilds {app name : Str} {size crc : Nat} {tracks : Tracks} {big : Bool} {w : WmvFile} {srs : Bytes} (hw : w.Ok)
    (ht : ∀ p ∈ tracks, p.1 = p.2.number ∧ p.2.number < 2 ^ 16 ∧ p.2.flags = 0)
    (hd : tracks.Pairwise (fun a b => a.1 ≠ b.1))
    (h : wmvCreateSrs app name size crc tracks (some (paddingOf w.packets)) big w.bytes = .ok srs) (hs : srs.length < 2 ^ 63) :
    wmvLoadSrs srs = .ok (⟨3, app, basename name, size, crc % 2 ^ 32⟩, paddingLoaded (paddingOf w.packets),
      tracks.map fun p => (p.1, readTrack big p.2)) ∧
    ∀ (ts : Tracks) (files : TrackFiles), w.Lucky → HasStreams ts files w.pieces →
      wmvRebuild srs (paddingLoaded (paddingOf w.packets)) ts files = .ok (w.bytes, crc32 w.bytes 0) := by
  unfold wmvCreateSrs at h
  rw [wmvCreateLoop_ok hw] at h
  simp only [bind_eq_ok, pure_eq_ok, Except.ok.injEq] at h
  obtain ⟨b, hb, rfl⟩ := h
  obtain ⟨f, ds, h1, h2, h3, rfl⟩ := wmvSrsObjects_ok ht hb
  exact ⟨wmvLoad_ok hw h3 h1 h2 hd hs (padding_short hw), fun ts files hl hdata => wmvRebuild_ok hw hl hs hdata⟩

/-- The tracks of a sample, as stored. -/
theorem wmvTracks_small {w : WmvFile} {ts : Tracks} (h : WmvTracks (declared w.objects) w.pieces ts) :
    ∀ p ∈ ts, p.1 = p.2.number ∧ p.2.number < 2 ^ 16 ∧ p.2.flags = 0 := by
  intro p hp
  obtain ⟨n, t⟩ := p
  have hd := h.data n t hp
  have hn : n < 2 ^ 16 := by
    rcases (h.keys n).1 (List.mem_map.2 ⟨_, hp, rfl⟩) with hk | ⟨q, hq, rfl⟩
    · simp only [declared, List.mem_map] at hk
      obtain ⟨o, _, rfl⟩ := hk
      omega
    · simp only [WmvFile.pieces, WmvPacket.pieces, List.mem_flatMap] at hq
      obtain ⟨pk, _, x, _, hq⟩ := hq
      have hx : x.stream < 128 := Nat.mod_lt _ (by decide)
      have : q.stream = x.stream := by
        unfold WmvPayload.pieces at hq
        cases hc : x.content with
        | plain d => rw [hc] at hq; simp only [List.mem_singleton] at hq; rw [hq]
        | runs d ds =>
          rw [hc] at hq
          simp only [List.mem_cons, List.mem_map] at hq
          rcases hq with rfl | ⟨_, _, rfl⟩ <;> rfl
      omega
  subst hd
  exact ⟨rfl, hn, rfl⟩

/-- C67: for every WMV sample with one data object, any number of packets of any size, with one or
more payloads each, compressed payloads and padding included, and where no packets at the end have
unlucky sizes (`Lucky`): when an SRS is created, reading it gives the name, size and CRC of the
sample and, for exactly the streams that it has, the length of their data and its first bytes; and
rebuilding from it with files that start with the data of the streams gives the sample back, byte
for byte.  The files may be longer, and there may be files of other streams. -/
theorem wmv_strip_rebuild_partial {app name : Str} {w : WmvFile} {big : Bool} {srs : Bytes} (hw : w.Ok) (hs : srs.length < 2 ^ 63)
    (h : srsWmvCreate app name w.bytes big none = .ok srs) :
    ∃ padding ts, wmvLoadSrs srs = .ok (⟨3, app, basename name, w.bytes.length, (crc32 w.bytes 0).toNat⟩, padding, ts) ∧
      ts.Pairwise (fun a b => a.1 ≠ b.1) ∧
      (∀ n t, (n, t) ∈ ts ↔ w.HasStream n ∧
        t = { flags := if big then 4 else 0, number := n, dataLength := (streamData w.pieces n).length, matchOffset := 0,
              sig := (streamData w.pieces n).take 256 }) ∧
      ∀ (ts : Tracks) (files : TrackFiles), w.Lucky →
        (∀ n, (∃ p ∈ w.pieces, p.stream = n) →
          (∃ t, (n, t) ∈ ts) ∧ ∃ rest, files n = some (streamData w.pieces n ++ rest)) →
        wmvRebuild srs padding ts files = .ok (w.bytes, crc32 w.bytes 0) := by
  unfold srsWmvCreate at h
  split at h
  · simp at h
  · simp only [bind_eq_ok] at h
    obtain ⟨⟨crc, tracks, pad⟩, hprof, h⟩ := h
    obtain ⟨rfl, hts, rfl⟩ := wmvProfile_ok hw hprof
    dsimp only at h
    split at h
    · simp at h
    · change wmvCreateSrs _ _ _ _ _ _ _ _ = _ at h
      obtain ⟨h1, h2⟩ := wmv_srs_rebuilds hw (wmvTracks_small hts) hts.distinct h hs
      refine ⟨paddingLoaded (paddingOf w.packets), tracks.map fun p => (p.1, readTrack big p.2), ?_,
        List.pairwise_map.2 hts.distinct, ?_, ?_⟩
      · rw [h1, Nat.mod_eq_of_lt (BitVec.isLt _)]
      · intro n t
        simp only [List.mem_map, Prod.mk.injEq]
        constructor
        · rintro ⟨⟨k, u⟩, hm, rfl, rfl⟩
          refine ⟨(hts.keys k).1 (List.mem_map.2 ⟨_, hm, rfl⟩), ?_⟩
          rw [hts.data k u hm]
          cases big <;> simp [readTrack, trackOf]
        · rintro ⟨hk, rfl⟩
          obtain ⟨⟨k, u⟩, hm, rfl⟩ := List.mem_map.1 ((hts.keys n).2 hk)
          refine ⟨(k, u), hm, rfl, ?_⟩
          rw [hts.data k u hm]
          cases big <;> simp [readTrack, trackOf]
      · intro ts files hl hdat
        refine h2 ts files hl fun n hn => ?_
        obtain ⟨⟨t, ht⟩, hr⟩ := hdat n hn
        exact ⟨List.mem_map.2 ⟨_, ht, rfl⟩, hr⟩

/-! ### What is accepted -/

theorem asfBlock_accepts (guid : Bytes) {data : Bytes} (h : data.length + 24 < 2 ^ 64) : ∃ b, asfBlock guid data = .ok b := by
  unfold asfBlock
  rw [pack_ok (by omega)]
  exact ⟨_, rfl⟩

theorem streamData_le (w : WmvFile) (n : Nat) : (streamData w.pieces n).length ≤ w.bytes.length := by
  have h1 : ∀ ps : List WmvPiece, (streamData ps n).length ≤ (ps.flatMap fun x => x.head ++ x.data).length := by
    intro ps
    induction ps with
    | nil => simp [streamData]
    | cons p ps ih =>
      rw [show p :: ps = [p] ++ ps from rfl, streamData_append, streamData_single]
      simp only [List.flatMap_append, List.length_append, List.flatMap_cons, List.flatMap_nil, List.length_nil]
      split
      · omega
      · simp only [List.length_nil]; omega
  have h2 : (w.pieces.flatMap fun x => x.head ++ x.data).length ≤ (w.packets.flatMap WmvPacket.bytes).length := by
    unfold WmvFile.pieces
    generalize w.packets = ps
    induction ps with
    | nil => simp
    | cons p ps ih =>
      simp only [List.flatMap_cons, List.flatMap_append, List.length_append, WmvPacket.bytes] at ih ⊢
      omega
  have := h1 w.pieces
  simp only [WmvFile.bytes, List.length_append]
  omega

/-- C67: an SRS is created for every WMV file with one data object that its packets fill, where each
stream has one stream object at most, in front of its data, below 2 GiB (with "-b" below 2^63
bytes), when its name can be encoded. -/
theorem wmv_create_succeeds {app name : Str} {w : WmvFile} {big : Bool} (hw : w.Ok) (hst : StreamsOk w)
    (hsize : big = true ∨ w.bytes.length < 2 ^ 31)
    (happ : Encodable app ∧ utf8Len app < 2 ^ 16) (hname : Encodable (basename name) ∧ utf8Len (basename name) < 2 ^ 16) :
    ∃ srs, srsWmvCreate app name w.bytes big none = .ok srs := by
  obtain ⟨ts, hprof, hts⟩ := wmvProfile_accepts hw hst
  have hne : ts ≠ [] := by
    rintro rfl
    have hpk : ∃ q ∈ w.pieces, True := by
      obtain ⟨p, hp⟩ := List.exists_mem_of_ne_nil _ hw.some
      have hc := (hw.packets p hp).count
      have : p.payloads ≠ [] := by
        rintro he
        rw [he] at hc
        split at hc <;> simp at hc
      obtain ⟨x, hx⟩ := List.exists_mem_of_ne_nil _ this
      have hxp : x.pieces ≠ [] := by
        unfold WmvPayload.pieces
        split <;> simp
      obtain ⟨q, hq⟩ := List.exists_mem_of_ne_nil _ hxp
      exact ⟨q, List.mem_flatMap.2 ⟨p, hp, List.mem_flatMap.2 ⟨x, hx, hq⟩⟩, trivial⟩
    obtain ⟨q, hq, _⟩ := hpk
    simpa [trackKeys] using (hts.keys q.stream).2 (Or.inr ⟨q, hq, rfl⟩)
  have hlt := hw.size
  obtain ⟨f, hf⟩ := (file_data_accepted_iff app 3 name w.bytes.length (crc32 w.bytes 0).toNat).2
    ⟨happ.1, happ.2, hname.1, hname.2, by omega, by omega⟩
  obtain ⟨fb, hfb⟩ := asfBlock_accepts asfSrsFile (data := f) (by have := file_data_short hf; omega)
  obtain ⟨tb, htb⟩ := mapM_ok (l := ts) (f := fun (x : Nat × TrackData) => (do
      let t := if big then { x.2 with flags := x.2.flags ||| 4 } else x.2
      let d ← trackSerialize t
      asfBlock asfSrsTrack d : Res Bytes)) (by
    rintro ⟨n, t⟩ hm
    obtain ⟨_, hn, hfl⟩ := wmvTracks_small hts _ hm
    have hdata := hts.data n t hm
    have hlen := streamData_le w n
    obtain ⟨d, hd⟩ := (track_data_accepted_iff (if big then { t with flags := t.flags ||| 4 } else t)).2 (by
      subst hdata
      cases big
      · simp at hsize
        refine ⟨by simp [trackOf], ?_, ?_, by simp [trackOf], by simp [trackOf], ?_⟩
        · dsimp only at hn ⊢; simp only [Bool.false_eq_true, if_false]; omega
        · simp only [Bool.false_eq_true, if_false, trackOf]
          rw [if_neg (by decide)]; omega
        · simp only [Bool.false_eq_true, if_false, trackOf, List.length_take]; omega
      · refine ⟨by simp [trackOf], ?_, ?_, by simp [trackOf], by simp [trackOf], ?_⟩
        · dsimp only at hn ⊢; simp only [if_true]; omega
        · simp only [if_true, trackOf]
          rw [if_pos (by decide)]; omega
        · simp only [if_true, trackOf, List.length_take]; omega)
    obtain ⟨b, hb⟩ := asfBlock_accepts asfSrsTrack (data := d) (by have := track_data_short hd; omega)
    exact ⟨b, by dsimp only; rw [hd, ok_bind, hb]⟩)
  obtain ⟨pb, hpb⟩ : ∃ pb, (if (paddingOf w.packets).all (· == 0) then .ok [] else asfBlock asfSrsPadding (paddingOf w.packets) : Res Bytes) = .ok pb := by
    split
    · exact ⟨_, rfl⟩
    · exact asfBlock_accepts _ (by have := padding_short hw; omega)
  have hobj : wmvSrsObjects app name w.bytes.length (crc32 w.bytes 0).toNat ts (some (paddingOf w.packets)) big =
      .ok (fb ++ (tb.flatten ++ pb)) := by
    unfold wmvSrsObjects
    rw [hf, ok_bind, hfb, ok_bind]
    have : (ts.mapM fun (_, t) => (do
      let t := if big then { t with flags := t.flags ||| 4 } else t
      let d ← trackSerialize t
      asfBlock asfSrsTrack d : Res Bytes)) = .ok tb := htb
    rw [this, ok_bind]
    dsimp only
    rw [hpb]
    rfl
  refine ⟨wmvSrsBytes w (fb ++ (tb.flatten ++ pb)), ?_⟩
  unfold srsWmvCreate
  rw [if_neg (by rintro ⟨h1, h2⟩; rcases hsize with h | h <;> simp_all <;> omega), hprof, ok_bind]
  dsimp only
  rw [if_neg hne]
  show wmvCreateSrs _ _ _ _ _ _ _ _ = _
  unfold wmvCreateSrs
  rw [wmvCreateLoop_ok hw, hobj]
  rfl

end Rescene.Props
