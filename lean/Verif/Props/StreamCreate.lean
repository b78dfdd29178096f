import Verif.Props.StreamSrs
import Verif.Props.Riff
/-
C35: of which stream samples an SRS can be made.
-/
namespace Rescene.Props
open Rescene Spec

theorem srsBlock_accepts (marker : Bytes) {data : Bytes} (h : 8 + data.length < 2 ^ 32) : ∃ b, srsBlock marker data = .ok b := by
  unfold srsBlock
  rw [pack_ok h]
  exact ⟨_, rfl⟩

/-- C35: an SRS is created exactly of the files below 2 GiB (with "-b" below 2^64 bytes) whose name can be
encoded, whatever their contents are. -/
theorem stream_create_iff {app name : Str} {sample : Bytes} {big : Bool} :
    (∃ srs, srsCreate app name sample big none = .ok srs) ↔
      (sample.length < if big then 2 ^ 64 else 2 ^ 31) ∧ Encodable app ∧ utf8Len app < 2 ^ 16 ∧
      Encodable (basename name) ∧ utf8Len (basename name) < 2 ^ 16 := by
  unfold srsCreate streamProfile streamCreateSrs
  constructor
  · rintro ⟨srs, h⟩
    split at h
    · simp at h
    · rename_i hs
      simp only [bind_eq_ok, pure_eq_ok, Except.ok.injEq] at h
      obtain ⟨_, _, ts, _, f, hf, _⟩ := h
      obtain ⟨h1, h2, h3, h4, _, h6⟩ := (file_data_accepted_iff _ _ _ _ _).1 ⟨f, hf⟩
      refine ⟨?_, h1, h2, h3, h4⟩
      cases big
      · simp at hs ⊢; omega
      · simpa using h6
  · rintro ⟨hsize, h1, h2, h3, h4⟩
    obtain ⟨f, hf⟩ := (file_data_accepted_iff app 3 name sample.length (crc32 sample 0).toNat).2
      ⟨h1, h2, h3, h4, by omega, by cases big <;> simp at hsize <;> omega⟩
    obtain ⟨fb, hfb⟩ := srsBlock_accepts mSRSF (data := f) (by have := file_data_short hf; omega)
    obtain ⟨d, hd⟩ := (track_data_accepted_iff (if big then { ({ number := 1, dataLength := sample.length, sig := sample.take 256 } : TrackData) with flags := 0 ||| 4 }
        else { number := 1, dataLength := sample.length, sig := sample.take 256 })).2 (by
      cases big
      · simp at hsize
        refine ⟨by simp, by simp, ?_, by simp, by simp, ?_⟩
        · simp only [Bool.false_eq_true, if_false]
          rw [if_neg (by decide)]; omega
        · simp only [Bool.false_eq_true, if_false, List.length_take]; omega
      · simp at hsize
        refine ⟨by simp, by simp, ?_, by simp, by simp, ?_⟩
        · simp only [if_true]
          rw [if_pos (by decide)]; omega
        · simp only [if_true, List.length_take]; omega)
    obtain ⟨tb, htb⟩ := srsBlock_accepts mSRST (data := d) (by have := track_data_short hd; omega)
    rw [if_neg (by rintro ⟨a, b⟩; subst b; simp at hsize; omega), calculate_crc32_correct]
    simp only [ok_bind, pure_eq_ok, List.mapM_cons, List.mapM_nil]
    rw [hf, ok_bind, hfb, ok_bind, hd, ok_bind, htb]
    exact ⟨_, rfl⟩

/-- A file of which an SRS can be made, and one whose name is too long. -/
example : (∃ srs, srsCreate (str "app") (str "/x/s.vob") [1, 2, 3] false none = .ok srs) ∧
    ¬ ∃ srs, srsCreate (List.replicate 65536 97) (str "/x/s.vob") [1, 2, 3] false none = .ok srs := by
  refine ⟨stream_create_iff.2 ⟨by decide, by unfold Encodable; decide, by decide, by unfold Encodable; decide, by decide⟩, ?_⟩
  rw [stream_create_iff]
  rintro ⟨_, _, h, _⟩
  revert h
  decide +kernel

end Rescene.Props
