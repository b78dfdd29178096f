import Verif.Lemmas.MkvTops
/-
C41: MKV samples are stripped and rebuilt.
-/
namespace Rescene.Props
open Rescene Rescene.Spec

theorem mkvItemsBytes_append (a b : List MkvItem) : mkvItemsBytes (a ++ b) = mkvItemsBytes a ++ mkvItemsBytes b := by
  simp [mkvItemsBytes]

theorem coarse_parts (lead info media : List MkvTop) (seg : Bytes) :
    mkvCoarse (lead ++ .part (.enter segmentId seg) :: (info ++ media)) =
      mkvCoarse lead ++ .enter segmentId seg :: mkvCoarse (info ++ media) := by
  simp [mkvCoarse, MkvTop.coarse]

theorem coarse_split (lead info media : List MkvTop) (seg : Bytes) :
    mkvCoarse lead ++ .enter segmentId seg :: mkvCoarse (info ++ media) =
      mkvCoarse (lead ++ .part (.enter segmentId seg) :: info) ++ mkvCoarse media := by
  simp [mkvCoarse, MkvTop.coarse]

theorem mkvFile_coarse (tops : List MkvTop) : mkvFile tops = mkvBytes (mkvCoarse tops) := (coarse_bytes tops).symm

theorem media_head {media : List MkvTop} (h : ∀ t, media.head? = some t → t.whole.id ∈ [clusterId, attachmentsId])
    (hok : ∀ p ∈ mkvFine media, p.Ok) (hs : mkvCoarse media = mkvFine media) :
    mkvItemsBytes ((mkvCoarse media).map kept) = [] ∨ ∃ x : MkvItem, ∃ tail, mkvItemsBytes ((mkvCoarse media).map kept) = x.bytes ++ tail ∧
      x.1.Ok ∧ x.1.id ∈ [clusterId, attachmentsId] := by
  cases media with
  | nil => exact Or.inl rfl
  | cons t media =>
    have hid := h t rfl
    have : ∃ p rest, mkvFine (t :: media) = p :: rest ∧ p.id = t.whole.id := by
      rw [mkvFine_cons]
      cases t with
      | part p => exact ⟨p, _, rfl, rfl⟩
      | master id size inner => exact ⟨_, _, rfl, rfl⟩
    obtain ⟨p, rest, hp, hpid⟩ := this
    rw [hs, hp, List.map_cons, mkvItemsBytes_cons]
    exact Or.inr ⟨kept p, _, rfl, hok p (by rw [hp]; simp), by show p.id ∈ _; rw [hpid]; exact hid⟩

/-- The SRS that is created, with any track information. -/
theorem mkv_srs_rebuilds {lead info media : List MkvTop} {seg : Bytes} (hp : PlainMkv lead seg info media)
    {app name : Str} {size crc : Nat} {big : Bool} {tracks : MkvTracks} {srs : Bytes}
    (hx : ∀ x ∈ tracks, x.1 = x.2.number ∧ x.2.number < 2 ^ 16 ∧ x.2.flags = 0)
    (hd : tracks.Pairwise fun a b => a.1 ≠ b.1)
    (h : mkvCreateSrs app name size crc tracks big (mkvFile (lead ++ .part (.enter segmentId seg) :: (info ++ media))) = .ok srs) :
    mkvLoadSrs srs = .ok (some ⟨3, app, basename name, size, crc % 2 ^ 32⟩,
      tracks.map fun x => (x.1, { loadTrack big x.2 with
        settings := strippedHeader (mkvFine (lead ++ .part (.enter segmentId seg) :: (info ++ media))) x.1 })) ∧
    ∀ (ts : MkvTracks) (files : TrackFiles) (atts : MkvAttach),
      (∀ b, .block b ∈ mkvFine media → (∃ t, movGet ts b.track = some t) ∧
        ∃ more, files b.track = some (mkvTrackData (mkvFine media) b.track ++ more)) →
      (∀ n d, (some n, d) ∈ attachments none (mkvFine media) → attachGet atts n = some (some d)) →
      mkvRebuild srs 3 ts files atts = .ok (mkvFile (lead ++ .part (.enter segmentId seg) :: (info ++ media)),
        crc32 (mkvFile (lead ++ .part (.enter segmentId seg) :: (info ++ media))) 0) := by
  have sh := plainMkv_shape hp
  unfold mkvCreateSrs at h
  rw [mkvFile_coarse, coarse_parts] at h
  obtain ⟨o, hown, rfl⟩ := mkvCreate_ok sh.segOk sh.leadKept sh.restKept h
  obtain ⟨sz, szf, f, ps, rfl, ho, hfo, hps, hf⟩ := mkvOwn_ok hx hown
  constructor
  · have hm := media_head hp.first (fun p hpm => (sh.prof p (by simp [mkvFine_append, mkvFine_cons, hpm])).1) sh.mediaSame
    have := mkvLoad_ok (media := mkvItemsBytes ((mkvCoarse media).map kept)) sh.segOk ho hfo hps hf (fun x hxm => (hx x hxm).1) hd
      sh.leadLoad sh.infoLoad hm
    rw [sh.leadBytes, mkvCoarse_append, List.map_append, mkvItemsBytes_append, sh.infoBytes, this]
    congr 2
    apply List.map_congr_left
    intro x _
    rw [sh.strips]
  · intro ts files atts h1 h2
    rw [mkvFile_coarse, coarse_parts]
    refine mkvRebuild_ok sh.segOk ho (fun p hpm => ⟨(sh.leadKept p hpm).1, (sh.leadKept p hpm).2.1⟩)
      (fun p hpm => ⟨(sh.restKept p hpm).1, (sh.restKept p hpm).2.1⟩) ⟨?_, ?_⟩
    · rw [coarse_split, sh.mediaSame]
      intro b hb
      rcases List.mem_append.1 hb with hb | hb
      · exact (sh.calm _ hb).elim
      · obtain ⟨⟨t, ht⟩, hfile⟩ := h1 b hb
        rw [trackData_append, trackData_calm sh.calm, List.nil_append]
        exact ⟨by rw [ht]; rfl, hfile⟩
    · rw [coarse_split, sh.mediaSame, attachments_calm sh.calm]
      obtain ⟨l, hl1, hl2⟩ := hp.names
      refine ⟨l, hl1, hl2, fun x hxm => h2 x.1 x.2 ?_⟩
      rw [hl1]
      exact List.mem_map.2 ⟨x, hxm, rfl⟩

/-- What is known of the tracks of a sample: for each track that has a block or a description its
number, the length of its data, a beginning of it and the bytes that are stripped from its frames. -/
structure MkvTracksRead (parts : List MkvPart) (big : Bool) (ts : MkvTracks) : Prop where
  distinct : ts.Pairwise fun a b => a.1 ≠ b.1
  which : ∀ n, (∃ t, movGet ts n = some t) ↔ HasTrack parts n
  known : ∀ n t, movGet ts n = some t → t.number = n ∧ t.len = (mkvTrackData parts n).length ∧ IsSignature t.sig (mkvTrackData parts n) ∧
    t.settings = strippedHeader parts n ∧ t.offset = 0 ∧ t.flags = (if big then 4 else 0) ∧ t.matchLen = 0 ∧ t.check = []

theorem movGet_map {α β : Type} (l : List (Nat × α)) (g : Nat → α → β) (n : Nat) :
    movGet (l.map fun x => (x.1, g x.1 x.2)) n = (movGet l n).map (g n) := by
  induction l with
  | nil => rfl
  | cons y l ih =>
    unfold movGet at ih ⊢
    rw [List.map_cons, List.find?_cons, List.find?_cons]
    by_cases h : y.1 = n
    · subst h; simp
    · simp only [show (y.1 == n) = false from beq_eq_false_iff_ne.mpr h]
      exact ih

/-- C41, all but the search for the data of the tracks in another file.  For every MKV file that is a
sequence of well-formed elements, with descriptions of tracks before the clusters and attachments of
different names: when an SRS is created, reading it gives the name, size and CRC of the sample and,
for exactly its tracks, length and first bytes; and rebuilding from it with the data of the tracks
(or more) and the attachments gives the sample back, byte for byte. -/
theorem mkv_strip_rebuild_partial {lead info media : List MkvTop} {seg : Bytes} (hp : PlainMkv lead seg info media)
    (hn : ∀ n, HasTrack (mkvFine (lead ++ .part (.enter segmentId seg) :: (info ++ media))) n → n < 2 ^ 16)
    {app name : Str} {big : Bool} {srs : Bytes}
    (h : srsMkvCreate app name (mkvFile (lead ++ .part (.enter segmentId seg) :: (info ++ media))) big none = .ok srs) :
    (∃ ts, mkvLoadSrs srs = .ok (some ⟨3, app, basename name,
        (mkvFile (lead ++ .part (.enter segmentId seg) :: (info ++ media))).length,
        (crc32 (mkvFile (lead ++ .part (.enter segmentId seg) :: (info ++ media))) 0).toNat⟩, ts) ∧
      MkvTracksRead (mkvFine (lead ++ .part (.enter segmentId seg) :: (info ++ media))) big ts) ∧
    ∀ (ts : MkvTracks) (files : TrackFiles) (atts : MkvAttach),
      (∀ b, .block b ∈ mkvFine media → (∃ t, movGet ts b.track = some t) ∧
        ∃ more, files b.track = some (mkvTrackData (mkvFine media) b.track ++ more)) →
      (∀ n d, (some n, d) ∈ attachments none (mkvFine media) → attachGet atts n = some (some d)) →
      mkvRebuild srs 3 ts files atts = .ok (mkvFile (lead ++ .part (.enter segmentId seg) :: (info ++ media)),
        crc32 (mkvFile (lead ++ .part (.enter segmentId seg) :: (info ++ media))) 0) := by
  unfold srsMkvCreate at h
  split at h
  · simp at h
  · simp only [bind_eq_ok] at h
    obtain ⟨⟨crc, tracks⟩, hprof, h⟩ := h
    dsimp only at h
    split at h
    · simp at h
    · rw [ok_bind] at h
      obtain ⟨rfl, ht⟩ := mkvProfile_ok (plainMkv_shape hp).prof hp.fits hprof
      obtain ⟨h1, h2⟩ := mkv_srs_rebuilds hp (by
        rintro ⟨n, t⟩ hxm
        have h3 := ht.data n t hxm
        have h4 := hn n ((ht.keys n).1 (List.mem_map.2 ⟨_, hxm, rfl⟩))
        rw [h3.2]
        exact ⟨rfl, h4, rfl⟩) ht.distinct h
      rw [Nat.mod_eq_of_lt (BitVec.isLt _)] at h1
      refine ⟨⟨_, h1, ?_, ?_, ?_⟩, h2⟩
      · rw [List.pairwise_map]; exact ht.distinct
      · intro n
        rw [← ht.keys n, ← movGet_isSome, Option.isSome_iff_exists, movGet_map tracks (fun n t => ({ loadTrack big t with settings := strippedHeader (mkvFine (lead ++ .part (.enter segmentId seg) :: (info ++ media))) n } : MkvTrack))]
        constructor
        · rintro ⟨t, h⟩
          cases hg : movGet tracks n with
          | none => rw [hg] at h; simp at h
          | some t => exact ⟨t, rfl⟩
        · rintro ⟨t, h⟩
          rw [h]
          exact ⟨_, rfl⟩
      · intro n t h
        rw [movGet_map tracks (fun n t => ({ loadTrack big t with settings := strippedHeader (mkvFine (lead ++ .part (.enter segmentId seg) :: (info ++ media))) n } : MkvTrack))] at h
        cases hg : movGet tracks n with
        | none => rw [hg] at h; simp at h
        | some t' =>
          rw [hg] at h
          injection h with h
          have hd := ht.data n t' (movGet_eq_some hg)
          subst h
          unfold loadTrack
          dsimp only
          refine ⟨by rw [hd.2], by rw [hd.2], hd.1, rfl, by rw [hd.2], ?_, rfl, rfl⟩
          rw [hd.2]
          cases big <;> simp

end Rescene.Props
