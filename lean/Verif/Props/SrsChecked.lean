import Verif.Props.StreamSrs
import Verif.Props.Flac
import Verif.Props.Mp3More
import Verif.Props.AviFind
import Verif.Props.MovCutExample
import Verif.Props.MkvCutExample
import Verif.Props.WmvCutExample
/-
C75: a sample that is not located in the movie is not accepted.
-/
namespace Rescene.Props
open Rescene Spec

/-- After the search a track with a signature has no place. -/
def Missed (found : Tracks) : Prop := ∃ x ∈ found, x.2.sig ≠ [] ∧ x.2.matchOffset = 0

/-- The same for streams and MP3, where 0 is a place. -/
def MissedFromStart (found : Tracks) : Prop := ∃ x ∈ found, x.2.matchOffset = -1

def MissedMkv (found : MkvTracks) : Prop := ∃ x ∈ found, x.2.sig ≠ [] ∧ x.2.offset = 0

theorem missed_video {found : Tracks} : videoUnlocated found = true ↔ Missed found := by
  unfold videoUnlocated Missed
  simp [List.any_eq_true]

theorem missed_flac {found : Tracks} : flacUnlocated found = true ↔ Missed found := by
  unfold flacUnlocated Missed
  simp [List.any_eq_true]

theorem missed_mkv {found : MkvTracks} : mkvUnlocated found = true ↔ MissedMkv found := by
  unfold mkvUnlocated MissedMkv
  simp [List.any_eq_true]

theorem missed_start {found : Tracks} : (found.any fun t => t.2.matchOffset == -1) = true ↔ MissedFromStart found := by
  unfold MissedFromStart
  simp [List.any_eq_true]

/-- C75: with -c no SRS is made when a track is not located. -/
theorem avi_check_refused {app name : Str} {sample main : Bytes} {big : Bool} {crc : BitVec 32} {tracks found : Tracks} 
    (hp : aviProfile sample = .ok (crc, tracks)) (hf : aviFind tracks main = .ok found) (hm : Missed found) :
    srsAviCreate app name sample big (some main) = .error .other := by
  have hu := missed_video.2 hm
  unfold srsAviCreate
  split
  · rfl
  · simp only [hp, ok_bind]
    split
    · rfl
    · rw [hf, ok_bind, if_pos hu]
      rfl

/-- C75: nothing is rebuilt when a track is searched for and not located. -/
theorem avi_search_refused {srs main : Bytes} {f : FileData} {tracks found : Tracks} 
    (hl : aviLoadSrs srs = .ok (f, tracks)) (hf : aviFind tracks main = .ok found) (hm : Missed found) :
    srsAviReconstruct srs main true = .error .other := by
  have hu := missed_video.2 hm
  unfold srsAviReconstruct
  simp only [hl, ok_bind]
  rw [if_pos (Or.inl trivial), hf, ok_bind, if_pos hu]
  rfl

/-- C75: with -c no SRS is made when a track is not located. -/
theorem mp4_check_refused {app name : Str} {sample main : Bytes} {big : Bool} {crc : BitVec 32} {tracks found : Tracks} 
    (hp : mp4Profile sample = .ok (crc, tracks)) (hf : mp4Find tracks main = .ok found) (hm : Missed found) :
    srsMp4Create app name sample big (some main) = .error .other := by
  have hu := missed_video.2 hm
  unfold srsMp4Create
  split
  · rfl
  · simp only [hp, ok_bind]
    split
    · rfl
    · rw [hf, ok_bind, if_pos hu]
      rfl

/-- C75: nothing is rebuilt when a track is searched for and not located. -/
theorem mp4_search_refused {srs main : Bytes} {f : FileData} {tracks found : Tracks} 
    (hl : mp4LoadSrs srs = .ok (f, tracks)) (hf : mp4Find tracks main = .ok found) (hm : Missed found) :
    srsMp4Reconstruct srs main true = .error .other := by
  have hu := missed_video.2 hm
  unfold srsMp4Reconstruct
  simp only [hl, ok_bind]
  rw [if_pos (Or.inl trivial), hf, ok_bind, if_pos hu]
  rfl

/-- C75: with -c no SRS is made when a track is not located. -/
theorem wmv_check_refused {app name : Str} {sample main : Bytes} {big : Bool} {crc : BitVec 32} {tracks found : Tracks} {pad : _} 
    (hp : wmvProfile sample = .ok (crc, tracks, pad)) (hf : wmvFind tracks main = .ok found) (hm : Missed found) :
    srsWmvCreate app name sample big (some main) = .error .other := by
  have hu := missed_video.2 hm
  unfold srsWmvCreate
  split
  · rfl
  · simp only [hp, ok_bind]
    split
    · rfl
    · rw [hf, ok_bind, if_pos hu]
      rfl

/-- C75: nothing is rebuilt when a track is searched for and not located. -/
theorem wmv_search_refused {srs main : Bytes} {f : FileData} {tracks found : Tracks} {pad : _} 
    (hl : wmvLoadSrs srs = .ok (f, pad, tracks)) (hf : wmvFind tracks main = .ok found) (hm : Missed found) :
    srsWmvReconstruct srs main true = .error .other := by
  have hu := missed_video.2 hm
  unfold srsWmvReconstruct
  simp only [hl, ok_bind]
  rw [if_pos (Or.inl trivial), hf, ok_bind, if_pos hu]
  rfl

/-- C75: with -c no SRS is made when a track is not located. -/
theorem mkv_check_refused {app name : Str} {sample main : Bytes} {big : Bool} {crc : BitVec 32} {tracks found : MkvTracks} 
    (hp : mkvProfile sample = .ok (crc, tracks)) (hf : mkvFind tracks main = .ok found) (hm : MissedMkv found) :
    srsMkvCreate app name sample big (some main) = .error .other := by
  have hu := missed_mkv.2 hm
  unfold srsMkvCreate
  split
  · rfl
  · simp only [hp, ok_bind]
    split
    · rfl
    · rw [hf, ok_bind, if_pos hu]
      rfl

/-- C75: nothing is rebuilt when a track is searched for and not located. -/
theorem mkv_search_refused {srs main : Bytes} {f : FileData} {tracks found : MkvTracks} 
    (hl : mkvLoadSrs srs = .ok (f, tracks)) (hf : mkvFind tracks main = .ok found) (hm : MissedMkv found) :
    srsMkvReconstruct srs main true = .error .other := by
  have hu := missed_mkv.2 hm
  unfold srsMkvReconstruct
  simp only [hl, ok_bind]
  rw [if_pos (Or.inl trivial), hf, ok_bind, if_pos hu]
  rfl

/-- C75: with -c no SRS is made when a track is not located. -/
theorem flac_check_refused {app name : Str} {sample main : Bytes} {big : Bool} {fp : Option (Nat × Bytes)} {crc : BitVec 32} {tracks found : Tracks} 
    (hp : flacProfile sample = .ok (crc, tracks)) (hf : flacFind tracks main = .ok found) (hm : Missed found) :
    srsFlacCreate app name sample fp big (some main) = .error .other := by
  have hu := missed_flac.2 hm
  unfold srsFlacCreate
  split
  · rfl
  · simp only [hp, ok_bind]
    split
    · rfl
    · rw [hf, ok_bind, if_pos hu]
      rfl

/-- C75: nothing is rebuilt when a track is searched for and not located. -/
theorem flac_search_refused {srs main : Bytes} {f : FileData} {tracks found : Tracks} {p : _} 
    (hl : flacLoadSrs srs = .ok (f, tracks, p)) (hf : flacFind tracks main = .ok found) (hm : Missed found) :
    srsFlacReconstruct srs main = .error .other := by
  have hu := missed_flac.2 hm
  unfold srsFlacReconstruct
  simp only [hl, ok_bind]
  rw [hf, ok_bind, if_pos hu]
  rfl

/-- C75: with -c no SRS is made when a track is not located. -/
theorem mp3_check_refused {app name : Str} {sample main : Bytes} {big : Bool} {fp : Option (Nat × Bytes)} {crc : BitVec 32} {tracks found : Tracks} 
    (hp : mp3Profile sample = .ok (crc, tracks)) (hf : mp3Find tracks main = .ok found) (hm : MissedFromStart found) :
    srsMp3Create app name sample fp big (some main) = .error .other := by
  have hu := missed_start.2 hm
  unfold srsMp3Create
  split
  · rfl
  · simp only [hp, ok_bind]
    split
    · rfl
    · rw [hf, ok_bind, if_pos (by unfold mp3Unlocated; exact hu)]
      rfl

/-- C75: nothing is rebuilt when a track is searched for and not located. -/
theorem mp3_search_refused {srs main : Bytes} {f : FileData} {tracks found : Tracks} {p : _} 
    (hl : mp3LoadSrs srs = .ok (f, tracks, p)) (hf : mp3Find tracks main = .ok found) (hm : MissedFromStart found) :
    srsMp3Reconstruct srs main = .error .other := by
  have hu := missed_start.2 hm
  unfold srsMp3Reconstruct
  simp only [hl, ok_bind]
  rw [hf, ok_bind, if_pos (by unfold mp3Unlocated; exact hu)]
  rfl

/-- C75: with -c no SRS is made when a track is not located. -/
theorem stream_check_refused {app name : Str} {sample main : Bytes} {big : Bool} {crc : BitVec 32} {tracks found : Tracks} 
    (hp : streamProfile sample = .ok (crc, tracks)) (hf : streamFind tracks main = .ok found) (hm : MissedFromStart found) :
    srsCreate app name sample big (some main) = .error .other := by
  have hu := missed_start.2 hm
  unfold srsCreate
  split
  · rfl
  · simp only [hp, ok_bind]
    rw [hf, ok_bind, if_pos hu]
    rfl

/-- C75: nothing is rebuilt when a track is searched for and not located. -/
theorem stream_search_refused {srs main : Bytes} {f : FileData} {tracks found : Tracks} 
    (hl : streamLoadSrs srs = .ok (f, tracks)) (hf : streamFind tracks main = .ok found) (hm : MissedFromStart found) :
    srsReconstruct srs main true = .error .other := by
  have hu := missed_start.2 hm
  unfold srsReconstruct
  simp only [hl, ok_bind]
  rw [if_pos (Or.inl trivial), hf, ok_bind, if_pos hu]
  rfl

/-- C75: an SRS of a stream sample is made with -c only when the movie contains the start of the sample. -/
theorem stream_check_occurs {app name : Str} {sample main srs : Bytes} {big : Bool} (hne : sample ≠ [])
    (h : srsCreate app name sample big (some main) = .ok srs) : ∃ k, OccursAt (sample.take 256) main k := by
  apply Classical.byContradiction
  intro hno
  obtain ⟨crc, hc⟩ : ∃ crc, streamProfile sample = .ok (crc, [(1, { number := 1, dataLength := sample.length, sig := sample.take 256 })]) := by
    refine ⟨crc32 sample 0, ?_⟩
    unfold streamProfile
    rw [calculate_crc32_correct, ok_bind]
    rfl
  have hsig : sample.take 256 ≠ [] := by
    intro h'
    rcases List.take_eq_nil_iff.mp h' with h' | h'
    · omega
    · exact hne h'
  have hf := (find_sets_offset (main := main) (tracks := [(1, { number := 1, dataLength := sample.length, sig := sample.take 256 })])
    (t := { number := 1, dataLength := sample.length, sig := sample.take 256 }) rfl hsig (by simp; omega)).2 (fun k hk => hno ⟨k, hk⟩)
  rw [stream_check_refused hc hf ⟨_, List.mem_cons_self, rfl⟩] at h
  cases h

/-! The hypotheses hold for samples and movies of each format that have other contents. -/

set_option maxRecDepth 100000

example : (streamProfile [1, 2, 3] >>= fun x => streamFind x.2 [1, 2, 4]).map (·.any fun t => t.2.matchOffset == -1) = .ok true ∧
    (streamProfile [1, 2, 3] >>= fun x => streamFind x.2 [4, 1, 2, 3]).map (·.any fun t => t.2.matchOffset == -1) = .ok false := by decide +kernel

example : (aviProfile (aviBytes cutSample) >>= fun x => aviFind x.2 (aviBytes falseMovie)).map videoUnlocated = .ok true ∧
    (aviProfile (aviBytes cutSample) >>= fun x => aviFind x.2 (aviBytes cutSample)).map videoUnlocated = .ok false := by decide +kernel

example : (mp4Profile (oneTrack [1, 2] [2]) >>= fun x => mp4Find x.2 (oneTrack [3, 4] [2])).map videoUnlocated = .ok true ∧
    (mp4Profile (oneTrack [1, 2] [2]) >>= fun x => mp4Find x.2 (oneTrack [1, 2] [2])).map videoUnlocated = .ok false := by decide +kernel

open MkvExample in
example : (mkvProfile (mk (one none) [framesOf [[11, 12]]]) >>= fun x => mkvFind x.2 (mk (one none) [framesOf [[13, 14]]])).map mkvUnlocated = .ok true ∧
    (mkvProfile (mk (one none) [framesOf [[11, 12]]]) >>= fun x => mkvFind x.2 (mk (one none) [framesOf [[11, 12]]])).map mkvUnlocated = .ok false := by
  decide +kernel

/-- The same file with other data in the first stream. -/
def wmvOther : WmvFile :=
  { wmvExample with packets := [wmvPack true [wmvPlain true 0x81 [1, 2, 3, 4, 5, 6, 7, 8] [10, 99, 12], wmvRuns true 2 [20] [[21, 22], [23]]] (List.replicate 12 0),
    wmvPack false [wmvRuns false 2 [24, 25] [[26, 27, 28]]] (List.replicate 35 3)] }

example : (wmvProfile wmvExample.bytes >>= fun x => wmvFind x.2.1 wmvOther.bytes).map videoUnlocated = .ok true ∧
    (wmvProfile wmvExample.bytes >>= fun x => wmvFind x.2.1 wmvExample.bytes).map videoUnlocated = .ok false := by decide +kernel

example : (flacProfile (flacBytes exMetas exFrames) >>= fun x => flacFind x.2 (flacBytes exMetas (0xFF :: 0xF9 :: List.replicate 118 5))).map flacUnlocated = .ok true ∧
    (flacProfile (flacBytes exMetas exFrames) >>= fun x => flacFind x.2 (flacBytes exMetas exFrames)).map flacUnlocated = .ok false := by decide +kernel

/-- An MP3 file whose sound does not begin with the signature: the track is not located. -/
theorem mp3_find_other {front : List Bytes} {b : UInt8} {rest : Bytes} {t : Tags} (h : Tagged front (0xFF :: b :: rest) t) (hb : b &&& 0xE0 = 0xE0)
    (hs : IsSound (0xFF :: b :: rest)) {td : TrackData} (h2 : 2 ≤ td.sig.length)
    (hsig : ¬ td.sig <+: 0xFF :: b :: rest) :
    ∃ found, mp3Find [(1, td)] (mp3File front (0xFF :: b :: rest) t) = .ok found ∧ MissedFromStart found := by
  refine ⟨[(1, { td with matchOffset := -1 })], ?_, _, List.mem_singleton.2 rfl, rfl⟩
  obtain ⟨v, hbl⟩ := blocks_sound h (Or.inl hs)
  generalize hsound : (0xFF :: b :: rest : Bytes) = sound at *
  unfold mp3Find
  rw [hbl, ok_bind, find_main]
  dsimp only
  unfold mp3FindBlock
  rw [if_neg (by simp only [mblk]; omega)]
  rw [show Tracks.get [(1, td)] 1 = .ok td from rfl, ok_bind]
  dsimp only
  have hd : mp3Part (mp3File front sound t) (mblk .mp3 sound front.flatten.length)
      (if (mblk .mp3 sound front.flatten.length).size < td.sig.length then (mblk .mp3 sound front.flatten.length).size else td.sig.length) 0 =
      .ok (sound.take (min td.sig.length sound.length)) := by
    refine part_mblk (file := mp3File front sound t) (pre := front.flatten) (post := t.bytes) rfl (k := min td.sig.length sound.length) ?_ (by omega)
    show (if (sound.length : Int) < (td.sig.length : Int) then (sound.length : Int) else (td.sig.length : Int)) = _
    by_cases hc : (sound.length : Int) < (td.sig.length : Int)
    · rw [if_pos hc]; omega
    · rw [if_neg hc]; omega
  rw [hd, ok_bind, if_neg, if_neg]
  · rfl
  · rintro ⟨_, h'⟩
    have hl : sound.length = rest.length + 2 := by rw [← hsound]; rfl
    obtain ⟨k, hk⟩ : ∃ k, min td.sig.length sound.length = k + 2 := ⟨min td.sig.length sound.length - 2, by omega⟩
    rw [hk, ← hsound] at h'
    simp [isSync, hb] at h'
  · intro h'
    apply hsig
    rw [h']
    exact List.take_prefix _ _

/-- So the hypotheses hold for two MP3 files with other sound. -/
example : ∃ crc tracks found, mp3Profile (mp3File (List.replicate 1 exFront) (exSound 100) { id3v1 := exV1 }) = .ok (crc, tracks) ∧
    mp3Find tracks (mp3File (List.replicate 1 exFront) (exSound 99) { id3v1 := exV1 }) = .ok found ∧ MissedFromStart found := by
  obtain ⟨found, h1, h2⟩ := mp3_find_other (td := { number := 1, dataLength := (exSound 100).length, sig := (exSound 100).take 256 })
    (front := List.replicate 1 exFront) (b := 0xFB) (rest := List.replicate 99 0x55 ++ (0x55 :: List.replicate 31 0)) (t := { id3v1 := exV1 })
    (exTagged 1 99) (by decide) (exSound_is 99) (by decide) (by decide)
  exact ⟨_, _, found, mp3_profile (exTagged 1 100) (exSound_ok 100), h1, h2⟩

end Rescene.Props
