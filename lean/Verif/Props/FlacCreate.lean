import Verif.Props.Flac
import Verif.Props.Riff
/-
C38: an SRS can be made of every FLAC file of the usual form.
-/
namespace Rescene.Props
open Rescene Spec

/-- The SRS that is written when the custom blocks can be made. -/
theorem flac_create_from {metas : List FlacMeta} {frames : Bytes} (h : PlainFlac metas frames)
    (hl : 128 ≤ (flacBytes metas frames).length) {app name : Str} {size crc : Nat} {tracks : Tracks}
    {fp : Option (Nat × Bytes)} {bigFile : Bool} {ins : Bytes} (hins : flacInsert app name size crc tracks fp bigFile = .ok ins) :
    flacCreateSrs app name size crc tracks fp bigFile (flacBytes metas frames) = .ok (mFLaC ++ (ins ++ metaBytes metas)) := by
  obtain ⟨hfine, _, ⟨rest, hfr⟩, hno⟩ := h
  have hflen : frames.length = rest.length + 1 := by rw [hfr]; rfl
  have hlen : (flacBytes metas frames).length = 4 + (metaBytes metas).length + frames.length := by
    simp [flacBytes]; omega
  have hms := metas_short metas
  obtain ⟨k, hk⟩ : ∃ k, (flacBytes metas frames).length + 1 = (metas.length + (k + 1 + 1)) + 1 :=
    ⟨(flacBytes metas frames).length - metas.length - 2, by omega⟩
  generalize hfile : flacBytes metas frames = file at *
  have hf0 : file = [] ++ (mFLaC ++ (metaBytes metas ++ frames)) := by rw [← hfile]; rfl
  have hf1 : file = mFLaC ++ (metaBytes metas ++ frames) := by rw [hf0]; rfl
  have hf2 : file = (mFLaC ++ metaBytes metas) ++ ((0xFF :: rest) ++ []) := by rw [hf1, hfr]; simp
  unfold flacCreateSrs
  rw [hins]
  unfold flacAll
  rw [hk, flacLoop_magic (pre := []) (pos := 0) rfl hf0 (s' := mFLaC ++ ins) (n := .read) (by
    simp [flacCreateBlock, magicBlock, FlacBlock.isFrame, flacContents, readAt]) (by decide)]
  rw [flacLoop_metas (fun s m => s ++ m.bytes)
    (fun _ => True) metas mFLaC frames (0 + 4) _ (fun m hm => (hfine m hm).1) rfl hf1 trivial]
  · rw [flacLoop_frames (pre := mFLaC ++ metaBytes metas) (rest := rest) (back := []) (n := .skip)
      (s' := mFLaC ++ ins ++ metaBytes metas) (by simp [mFLaC]; omega) hf2 hl (Or.inl ⟨rfl, hno⟩)]
    · rw [if_neg (by decide), flacLoop_end (by rw [← hfr]; omega) k, List.append_assoc]
    · have : metas.foldl (fun s m => s ++ m.bytes) (mFLaC ++ ins) = mFLaC ++ ins ++ metaBytes metas := by
        have gen : ∀ (l : List FlacMeta) (x : Bytes), l.foldl (fun s m => s ++ m.bytes) x = x ++ metaBytes l := by
          intro l
          induction l with
          | nil => intro x; simp
          | cons m l ih => intro x; rw [List.foldl_cons, ih]; simp
        exact gen _ _
      rw [this]
      simp [flacCreateBlock, frameBlock, FlacBlock.isFrame]
  · intro m hm s b _ hty hhdr hsz hcont
    refine ⟨trivial, .read, by decide, ?_⟩
    have h4 := (hfine m hm).1.2.2.2.1
    simp [flacCreateBlock, hty, hhdr, hcont, FlacBlock.isFrame, h4, FlacMeta.bytes]

theorem flacSrsBlock_accepts (m : UInt8) {data : Bytes} (h : data.length < 2 ^ 32) : ∃ b, flacSrsBlock m data = .ok b := by
  unfold flacSrsBlock packBe
  rw [if_pos (by simpa using h)]
  exact ⟨_, rfl⟩

/-- C38: an SRS is created of every FLAC file without tags, of at least 128 bytes and below 2 GiB (with "-b"
below 2^64 bytes), whatever the fingerprint is, when its name can be encoded. -/
theorem flac_create_succeeds {metas : List FlacMeta} {frames : Bytes} (hp : PlainFlac metas frames)
    (hl : 128 ≤ (flacBytes metas frames).length) {app name : Str} (fp : Option (Nat × Bytes)) {big : Bool}
    (hsize : (flacBytes metas frames).length < if big then 2 ^ 64 else 2 ^ 31)
    (happ : Encodable app ∧ utf8Len app < 2 ^ 16) (hname : Encodable (basename name) ∧ utf8Len (basename name) < 2 ^ 16) :
    ∃ srs, srsFlacCreate app name (flacBytes metas frames) fp big none = .ok srs := by
  have hfl : frames.length ≤ (flacBytes metas frames).length := by simp [flacBytes]; omega
  obtain ⟨f, hf⟩ := (file_data_accepted_iff app 3 name (flacBytes metas frames).length
    (crc32 (flacBytes metas frames) 0).toNat).2 ⟨happ.1, happ.2, hname.1, hname.2, by omega, by cases big <;> simp at hsize <;> omega⟩
  obtain ⟨fb, hfb⟩ := flacSrsBlock_accepts 0x73 (data := f) (by have := file_data_short hf; omega)
  obtain ⟨d, hd⟩ := (track_data_accepted_iff (if big then { ({ number := 1, dataLength := frames.length, sig := frames.take 256 } : TrackData) with flags := 0 ||| 4 }
      else { number := 1, dataLength := frames.length, sig := frames.take 256 })).2 (by
    cases big
    · simp at hsize
      refine ⟨by simp, by simp, ?_, by simp, by simp, ?_⟩
      · simp only [Bool.false_eq_true, if_false]
        rw [if_neg (by decide)]; omega
      · simp only [Bool.false_eq_true, if_false, List.length_take]; omega
    · simp at hsize
      refine ⟨by simp, by simp, ?_, by simp, by simp, ?_⟩
      · simp only [if_true]
        rw [if_pos (by decide)]; omega
      · simp only [if_true, List.length_take]; omega)
  obtain ⟨tb, htb⟩ := flacSrsBlock_accepts 0x74 (data := d) (by have := track_data_short hd; omega)
  have hins : flacInsert app name (flacBytes metas frames).length (crc32 (flacBytes metas frames) 0).toNat
      [(1, { number := 1, dataLength := frames.length, sig := frames.take 256 })] fp big = .ok (fb ++ ((tb ++ flacFingerprint fp) ++ [])) := by
    unfold flacInsert
    rw [hf, ok_bind, hfb, ok_bind]
    simp only [List.mapM_cons, List.mapM_nil, flacTrack]
    rw [hd, ok_bind, htb]
    rfl
  unfold srsFlacCreate
  rw [if_neg (by rintro ⟨h1, h2⟩; subst h2; simp at hsize; omega), flac_profile hp hl, ok_bind]
  dsimp only
  rw [if_neg (by simp)]
  exact ⟨_, flac_create_from hp hl hins⟩

/-- The hypotheses are met. -/
example : ∃ srs, srsFlacCreate (str "app") (str "/x/a.flac") (flacBytes exMetas exFrames) (some (215, [65, 66])) false none = .ok srs :=
  flac_create_succeeds exPlain (by decide +kernel) _ (by decide +kernel) ⟨by unfold Encodable; decide, by decide⟩
    ⟨by unfold Encodable; decide, by decide⟩

end Rescene.Props
