import Verif.Lemmas.SrsMain
import Verif.Props.StreamSrs
import Verif.Props.Flac
import Verif.Props.Mp3More
import Verif.Props.AviFind
/-
C76: an SRS file is recognised as being of the format of its sample, so that the command that
rebuilds uses the reader of the format that the SRS was written with.
-/
namespace Rescene.Props
open Rescene Rescene.Spec

/-! ### What the kinds say about a file -/

theorem kind_known {dig : Nat → Bool} {lower : Str → Str} {path : Str} {file : Bytes} {k : SampleKind} (hk : k ≠ .unknown)
    (h : MediaFile.kind dig lower ⟨path, file, none⟩ = .ok k) :
    14 ≤ file.length ∧ markerKind lower path file (file.take 14) = .ok k := by
  unfold MediaFile.kind at h
  dsimp only at h
  split at h
  · simp only [Except.ok.injEq] at h; exact absurd h.symm hk
  · rename_i hl
    rw [List.length_take] at hl
    refine ⟨by omega, ?_⟩
    split at h
    · simp only [Except.ok.injEq] at h; exact absurd h.symm hk
    · split at h
      · simp only [Except.ok.injEq] at h; exact absurd h.symm hk
      · exact h

theorem markerKind_cases {lower : Str → Str} {path : Str} {file marker : Bytes} {k : SampleKind}
    (h : markerKind lower path file marker = .ok k) :
    (mMKV <+: marker ∧ k = .mkv) ∨
    (¬ mMKV <+: marker ∧ ((mRIFF <+: marker ∧ (k = .mp3 ∨ k = .avi)) ∨
    (¬ mRIFF <+: marker ∧ (((mFtyp <+: marker.drop 4 ∨ m3gp5 <+: marker) ∧ k = .mp4) ∨
    (¬ (mFtyp <+: marker.drop 4 ∨ m3gp5 <+: marker) ∧ ((mWMV <+: marker ∧ k = .wmv) ∨
    (¬ mWMV <+: marker ∧ ((mFLaC <+: marker ∧ k = .flac) ∨
    (mID3 <+: marker ∧ ∃ n, decodeId3Size (slice marker 6 10) = .ok n ∧
      k = if readAt file (10 + n) 4 = mFLaC then .flac else .mp3) ∨
    (k = .stream ∨ k = .m2ts ∨ k = .mp3 ∨ k = .unknown))))))))) := by
  unfold markerKind at h
  by_cases c1 : mMKV <+: marker
  · rw [if_pos c1] at h; simp only [Except.ok.injEq] at h; exact Or.inl ⟨c1, h.symm⟩
  refine Or.inr ⟨c1, ?_⟩
  rw [if_neg c1] at h
  by_cases c2 : mRIFF <+: marker
  · rw [if_pos c2] at h
    refine Or.inl ⟨c2, ?_⟩
    split at h <;> simp only [Except.ok.injEq] at h
    · exact Or.inl h.symm
    · exact Or.inr h.symm
  refine Or.inr ⟨c2, ?_⟩
  rw [if_neg c2] at h
  by_cases c3 : mFtyp <+: marker.drop 4 ∨ m3gp5 <+: marker
  · rw [if_pos c3] at h; simp only [Except.ok.injEq] at h; exact Or.inl ⟨c3, h.symm⟩
  refine Or.inr ⟨c3, ?_⟩
  rw [if_neg c3] at h
  by_cases c4 : mWMV <+: marker
  · rw [if_pos c4] at h; simp only [Except.ok.injEq] at h; exact Or.inl ⟨c4, h.symm⟩
  refine Or.inr ⟨c4, ?_⟩
  rw [if_neg c4] at h
  by_cases c5 : mFLaC <+: marker
  · rw [if_pos c5] at h; simp only [Except.ok.injEq] at h; exact Or.inl ⟨c5, h.symm⟩
  refine Or.inr ?_
  rw [if_neg c5] at h
  by_cases c6 : mStreamSrs <+: marker
  · rw [if_pos c6] at h; simp only [Except.ok.injEq] at h; exact Or.inr (Or.inl h.symm)
  rw [if_neg c6] at h
  by_cases c7 : mM2tsSrs <+: marker
  · rw [if_pos c7] at h; simp only [Except.ok.injEq] at h; exact Or.inr (Or.inr (Or.inl h.symm))
  rw [if_neg c7] at h
  by_cases c8 : mID3 <+: marker
  · rw [if_pos c8, bind_eq_ok] at h
    obtain ⟨n, hn, h⟩ := h
    refine Or.inl ⟨c8, n, hn, ?_⟩
    split at h <;> rename_i hc <;> simp only [pure_eq_ok, Except.ok.injEq] at h <;> simp [hc, h.symm]
  rw [if_neg c8] at h
  refine Or.inr ?_
  by_cases c9 : mSRSF <+: marker
  · rw [if_pos c9] at h; simp only [Except.ok.injEq] at h; subst h; simp
  rw [if_neg c9] at h
  by_cases c10 : marker.length < 2
  · rw [if_pos c10] at h; simp at h
  rw [if_neg c10] at h
  by_cases c11 : isSync marker = true
  · rw [if_pos c11] at h; simp only [Except.ok.injEq] at h; subst h; simp
  rw [if_neg c11] at h
  by_cases c12 : 128 ≤ file.length ∧ readAt file (file.length - 128) 3 = mTAG
  · rw [if_pos c12] at h; simp only [Except.ok.injEq] at h; subst h; simp
  rw [if_neg c12] at h
  split at h <;> simp only [Except.ok.injEq] at h <;> subst h <;> simp

theorem markerKind_avi {lower : Str → Str} {path : Str} {file marker : Bytes} (h : markerKind lower path file marker = .ok .avi) :
    mRIFF <+: marker := by
  have := markerKind_cases h
  grind

theorem markerKind_mkv {lower : Str → Str} {path : Str} {file marker : Bytes} (h : markerKind lower path file marker = .ok .mkv) :
    mMKV <+: marker := by
  have := markerKind_cases h
  grind

theorem markerKind_wmv {lower : Str → Str} {path : Str} {file marker : Bytes} (h : markerKind lower path file marker = .ok .wmv) :
    ¬ mMKV <+: marker ∧ ¬ mRIFF <+: marker ∧ ¬ (mFtyp <+: marker.drop 4 ∨ m3gp5 <+: marker) ∧ mWMV <+: marker := by
  have := markerKind_cases h
  grind

theorem markerKind_mp4 {lower : Str → Str} {path : Str} {file marker : Bytes} (h : markerKind lower path file marker = .ok .mp4) :
    ¬ mMKV <+: marker ∧ ¬ mRIFF <+: marker ∧ (mFtyp <+: marker.drop 4 ∨ m3gp5 <+: marker) := by
  have := markerKind_cases h
  grind

theorem markerKind_flac {lower : Str → Str} {path : Str} {file marker : Bytes} (h : markerKind lower path file marker = .ok .flac) :
    mFLaC <+: marker ∧ ¬ mFtyp <+: marker.drop 4 ∨
    (¬ mFtyp <+: marker.drop 4 ∧ mID3 <+: marker ∧ ∃ n, decodeId3Size (slice marker 6 10) = .ok n ∧ readAt file (10 + n) 4 = mFLaC) := by
  rcases markerKind_cases h with ⟨_, h⟩ | ⟨_, ⟨_, h | h⟩ | ⟨_, ⟨_, h⟩ | ⟨h3, ⟨_, h⟩ | ⟨_, ⟨h5, _⟩ | ⟨h8, n, hn, h⟩ | h | h | h | h⟩⟩⟩⟩
  all_goals first
    | exact Or.inl ⟨h5, fun hh => h3 (Or.inl hh)⟩
    | skip
  all_goals first
    | (refine Or.inr ⟨fun hh => h3 (Or.inl hh), h8, n, hn, ?_⟩
       split at h
       · assumption
       · exact absurd h (by simp))
    | exact absurd h (by simp)

/-- MP3 files are not mistaken for MP4 files. -/
theorem markerKind_mp3 {lower : Str → Str} {path : Str} {file marker : Bytes} (h : markerKind lower path file marker = .ok .mp3) :
    mRIFF <+: marker ∨ ¬ mFtyp <+: marker.drop 4 := by
  have := markerKind_cases h
  grind

theorem markerKind_tagged {lower : Str → Str} {path : Str} {file marker : Bytes} {n : Nat} (h1 : mID3 <+: marker)
    (h2 : ¬ mFtyp <+: marker.drop 4) (h3 : decodeId3Size (slice marker 6 10) = .ok n) :
    markerKind lower path file marker = .ok (if readAt file (10 + n) 4 = mFLaC then .flac else .mp3) := by
  obtain ⟨u, rfl⟩ := h1
  unfold markerKind
  rw [if_neg (by simp [mMKV, mID3]), if_neg (by simp [mRIFF, mID3]), if_neg (by rintro (hh | hh); exact h2 hh; simp [m3gp5, mID3] at hh),
    if_neg (by simp [mWMV, mID3]), if_neg (by simp [mFLaC, mID3]), if_neg (by simp [mStreamSrs, mID3]), if_neg (by simp [mM2tsSrs, mID3]),
    if_pos ⟨u, rfl⟩, h3, ok_bind]
  split <;> rfl

/-- A file that starts with these bytes. -/
theorem kind_starts {dig : Nat → Bool} {lower : Str → Str} {path : Str} {file p : Bytes} (hl : 14 ≤ file.length) (hp : p <+: file)
    (h14 : p.length ≤ 14) (hr : ¬ [0x52, 0x61] <+: file) :
    ∃ t, file.take 14 = p ++ t ∧ MediaFile.kind dig lower ⟨path, file, none⟩ = markerKind lower path file (p ++ t) := by
  obtain ⟨u, rfl⟩ := hp
  refine ⟨u.take (14 - p.length), ?_, ?_⟩
  · rw [List.take_append, List.take_of_length_le (by omega)]
  · rw [kind_eq (by exact hl) (by exact hr)]
    dsimp only
    rw [List.take_append, List.take_of_length_le (l := p) (by omega)]

/-- Not a RAR file, from the first two bytes. -/
theorem not_rar {a b : UInt8} {p file : Bytes} (h : (a :: b :: p) <+: file) (hne : (a, b) ≠ (0x52, 0x61)) : ¬ [0x52, 0x61] <+: file := by
  obtain ⟨u, rfl⟩ := h
  rintro ⟨v, hv⟩
  simp only [List.cons_append, List.nil_append, List.cons.injEq] at hv
  exact hne (by rw [← hv.1, ← hv.2.1])

/-- A file with an ID3v2 tag. -/
theorem tagged_kind {dig : Nat → Bool} {lower : Str → Str} {path : Str} {file ten : Bytes} {n : Nat} (hl : 14 ≤ file.length)
    (h10 : file.take 10 = ten) (h1 : mID3 <+: ten) (h2 : ¬ mFtyp <+: ten.drop 4) (h3 : decodeId3Size (slice ten 6 10) = .ok n) :
    MediaFile.kind dig lower ⟨path, file, none⟩ = .ok (if readAt file (10 + n) 4 = mFLaC then .flac else .mp3) := by
  have hlen : ten.length = 10 := by rw [← h10, List.length_take]; omega
  have h14 : file.take 14 = ten ++ (file.drop 10).take 4 := by rw [← h10, ← List.take_add]
  have hp : mID3 <+: file := by
    refine h1.trans ?_
    rw [← h10]
    exact List.take_prefix _ _
  have hr := not_rar (a := 0x49) (b := 0x44) (p := [0x33]) (file := file) hp (by decide)
  rw [kind_eq (by exact hl) (by exact hr)]
  dsimp only
  rw [h14]
  refine markerKind_tagged (h1.trans (List.prefix_append _ _)) ?_ ?_
  · rw [List.drop_append_of_le_length (by omega), prefix_first (by rw [List.length_drop, hlen]; decide)]
    exact h2
  · rw [← h3]
    congr 1
    unfold slice
    rw [List.take_append_of_le_length (by omega)]

/-! ### The kind of an SRS -/

/-- C76, streams: every SRS of a stream sample is recognised as one, whatever its name. -/
theorem stream_srs_kind {dig : Nat → Bool} {lower : Str → Str} {app name srsPath : Str} {sample srs : Bytes} {big : Bool} {check : Option Bytes}
    (h : srsCreate app name sample big check = .ok srs) :
    MediaFile.kind dig lower ⟨srsPath, srs, none⟩ = .ok .stream := by
  unfold srsCreate at h
  split at h
  · simp at h
  · simp only [bind_eq_ok] at h
    obtain ⟨⟨crc, ts⟩, _, ts', _, h⟩ := h
    unfold streamCreateSrs at h
    simp only [bind_eq_ok, pure_eq_ok, Except.ok.injEq] at h
    obtain ⟨f, _, fb, hfb, tb, _, rfl⟩ := h
    obtain ⟨_, rfl⟩ := srsBlock_eq_ok.1 hfb
    have hl : 14 ≤ (mSTRM ++ ([8, 0, 0, 0] ++ (sblk mSRSF f ++ tb.flatten))).length := by
      have := sblk_length (m := mSRSF) (d := f) rfl
      simp only [List.length_append, this, mSTRM, List.length_cons, List.length_nil]
      omega
    obtain ⟨t, _, ht⟩ := kind_starts (dig := dig) (lower := lower) (path := srsPath) (p := mStreamSrs) hl ⟨sblk mSRSF f ++ tb.flatten, rfl⟩
      (by decide) (not_rar (a := 0x53) (b := 0x54) (p := []) ⟨_, rfl⟩ (by decide))
    rw [ht]
    simp [markerKind, mStreamSrs, mMKV, mRIFF, mFtyp, m3gp5, mWMV, mFLaC]

/-- C76, AVI: every SRS of an AVI sample is recognised as one.  Its name must not end in .mp3. -/
theorem avi_srs_kind {dig : Nat → Bool} {lower : Str → Str} {app name path srsPath : Str} {sample srs : Bytes} {big : Bool} {check : Option Bytes}
    (hk : MediaFile.kind dig lower ⟨path, sample, none⟩ = .ok .avi) (h : srsAviCreate app name sample big check = .ok srs)
    (hl : 14 ≤ srs.length) (hp : ¬ str ".mp3" <:+ srsPath) :
    MediaFile.kind dig lower ⟨srsPath, srs, none⟩ = .ok .avi := by
  obtain ⟨h14, hk⟩ := kind_known (by simp) hk
  have hm := (markerKind_avi hk).trans (List.take_prefix _ _)
  have hs : mRIFF <+: srs := by
    unfold srsAviCreate at h
    split at h
    · simp at h
    · simp only [bind_eq_ok] at h
      obtain ⟨⟨crc, ts⟩, _, h⟩ := h
      dsimp only at h
      split at h
      · simp at h
      · simp only [bind_eq_ok] at h
        obtain ⟨ts', _, h⟩ := h
        refine List.IsPrefix.trans ?_ (avi_srs_start (by omega) h)
        obtain ⟨u, rfl⟩ := hm
        exact ⟨u.take 4, by simp [mRIFF]⟩
  obtain ⟨t, _, ht⟩ := kind_starts (dig := dig) (lower := lower) (path := srsPath) hl hs (by decide)
    (not_rar (a := 0x52) (b := 0x49) (p := [0x46, 0x46]) hs (by decide))
  rw [ht]
  simp [markerKind, mMKV, mRIFF, hp]

/-- C76, MKV. -/
theorem mkv_srs_kind {dig : Nat → Bool} {lower : Str → Str} {app name path srsPath : Str} {sample srs : Bytes} {big : Bool} {check : Option Bytes}
    (hk : MediaFile.kind dig lower ⟨path, sample, none⟩ = .ok .mkv) (h : srsMkvCreate app name sample big check = .ok srs)
    (hl : 14 ≤ srs.length) :
    MediaFile.kind dig lower ⟨srsPath, srs, none⟩ = .ok .mkv := by
  obtain ⟨h14, hk⟩ := kind_known (by simp) hk
  have hm := (markerKind_mkv hk).trans (List.take_prefix _ _)
  have hs : mMKV <+: srs := by
    unfold srsMkvCreate at h
    split at h
    · simp at h
    · simp only [bind_eq_ok] at h
      obtain ⟨⟨crc, ts⟩, _, h⟩ := h
      dsimp only at h
      split at h
      · simp at h
      · simp only [bind_eq_ok] at h
        obtain ⟨ts', _, h⟩ := h
        exact mkv_srs_start hm (by omega) h
  obtain ⟨t, _, ht⟩ := kind_starts (dig := dig) (lower := lower) (path := srsPath) hl hs (by decide)
    (not_rar (a := 0x1A) (b := 0x45) (p := [0xDF, 0xA3]) hs (by decide))
  rw [ht]
  simp [markerKind, mMKV]

/-- C76, WMV. -/
theorem wmv_srs_kind {dig : Nat → Bool} {lower : Str → Str} {app name path srsPath : Str} {sample srs : Bytes} {big : Bool} {check : Option Bytes}
    (hk : MediaFile.kind dig lower ⟨path, sample, none⟩ = .ok .wmv) (h24 : 24 ≤ sample.length)
    (h : srsWmvCreate app name sample big check = .ok srs) :
    MediaFile.kind dig lower ⟨srsPath, srs, none⟩ = .ok .wmv := by
  obtain ⟨h14, hk⟩ := kind_known (by simp) hk
  obtain ⟨k1, k2, k3, k4⟩ := markerKind_wmv hk
  have hs : sample.take 24 <+: srs := by
    unfold srsWmvCreate at h
    split at h
    · simp at h
    · simp only [bind_eq_ok] at h
      obtain ⟨⟨crc, ts⟩, _, h⟩ := h
      dsimp only at h
      split at h
      · simp at h
      · simp only [bind_eq_ok] at h
        obtain ⟨ts', _, h⟩ := h
        exact wmv_srs_start h24 h
  have hs' : sample.take 14 <+: srs := takePrefix hs (by omega)
  have hlen : (sample.take 14).length = 14 := by rw [List.length_take]; omega
  have hl : 14 ≤ srs.length := by have := hs'.length_le; omega
  have hr : ¬ [0x52, 0x61] <+: srs := not_rar (a := 0x30) (b := 0x26) (p := [0xB2, 0x75]) (k4.trans hs') (by decide)
  rw [kind_eq hl hr]
  dsimp only
  rw [show srs.take 14 = sample.take 14 by rw [List.prefix_iff_eq_take.1 hs', hlen]]
  simp [markerKind, k1, k2, k3, k4]

/-- A file that is recognised as MP4 starts with its media data only when the size of that is
written with the letters 3gp5. -/
theorem mp4_not_media {sample : Bytes} (k3 : mFtyp <+: (sample.take 14).drop 4 ∨ m3gp5 <+: sample.take 14)
    (hm : ¬ [0x33, 0x67, 0x70, 0x35, 0x6D, 0x64, 0x61, 0x74] <+: sample) : ¬ aMdat <+: sample.drop 4 := by
  rintro ⟨v, hv⟩
  have e : sample = sample.take 4 ++ (aMdat ++ v) := by rw [hv, List.take_append_drop]
  rcases k3 with ⟨w, hw⟩ | hw
  · rw [List.drop_take, ← hv] at hw
    simp [mFtyp, aMdat] at hw
  · apply hm
    have h4 : m3gp5 <+: sample := hw.trans (List.take_prefix _ _)
    rw [← show m3gp5 = sample.take 4 from List.prefix_iff_eq_take.1 h4] at e
    rw [e]
    exact ⟨v, rfl⟩

/-- C76, MP4.  The first atom must not be the media data: a file of this kind starts with "ftyp", or
with an atom of the size 0x33677035 (the letters 3gp5, 862416949 bytes), which is excluded when it
is media data. -/
theorem mp4_srs_kind {dig : Nat → Bool} {lower : Str → Str} {app name path srsPath : Str} {sample srs : Bytes} {big : Bool} {check : Option Bytes}
    (hk : MediaFile.kind dig lower ⟨path, sample, none⟩ = .ok .mp4) (hm : ¬ [0x33, 0x67, 0x70, 0x35, 0x6D, 0x64, 0x61, 0x74] <+: sample)
    (h : srsMp4Create app name sample big check = .ok srs) (hl : 14 ≤ srs.length) :
    MediaFile.kind dig lower ⟨srsPath, srs, none⟩ = .ok .mp4 := by
  obtain ⟨h14, hk⟩ := kind_known (by simp) hk
  obtain ⟨k1, k2, k3⟩ := markerKind_mp4 hk
  have hs : sample.take 8 <+: srs := by
    unfold srsMp4Create at h
    split at h
    · simp at h
    · simp only [bind_eq_ok] at h
      obtain ⟨⟨crc, ts⟩, _, h⟩ := h
      dsimp only at h
      split at h
      · simp at h
      · simp only [bind_eq_ok] at h
        obtain ⟨ts', _, h⟩ := h
        refine mp4_srs_start (by omega) ?_ h
        intro hc
        apply mp4_not_media k3 hm
        rw [List.drop_take] at hc
        rw [← hc]
        exact List.take_prefix _ _
  have h8 : (sample.take 8).length = 8 := by rw [List.length_take]; omega
  obtain ⟨u, rfl⟩ := hs
  -- the two files have the same first eight bytes
  have e : ∀ q : Bytes, q.length ≤ 8 → (q <+: (sample.take 8 ++ u).take 14 ↔ q <+: sample.take 14) := by
    intro q hq
    rw [show sample.take 14 = sample.take 8 ++ (sample.drop 8).take 6 by rw [← List.take_add],
      List.take_append, h8, List.take_of_length_le (by omega)]
    exact (prefix_first (by omega)).trans (prefix_first (by omega)).symm
  have e4 : mFtyp <+: ((sample.take 8 ++ u).take 14).drop 4 ↔ mFtyp <+: (sample.take 14).drop 4 := by
    rw [show sample.take 14 = sample.take 8 ++ (sample.drop 8).take 6 by rw [← List.take_add],
      List.take_append, h8, List.take_of_length_le (by omega), List.drop_append_of_le_length (by omega), List.drop_append_of_le_length (by omega)]
    have : ((sample.take 8).drop 4).length = 4 := by rw [List.length_drop]; omega
    exact (prefix_first (by rw [this]; decide)).trans (prefix_first (by rw [this]; decide)).symm
  have r0 : ¬ [0x52, 0x61, 0x72, 0x21, 0x1A, 0x07] <+: (sample.take 8 ++ u).take 14 := by
    intro hp
    rw [e _ (by decide)] at hp
    obtain ⟨v, hv⟩ := hp
    rw [← hv] at k3
    rcases k3 with k3 | k3 <;> obtain ⟨w, hw⟩ := k3 <;> simp [mFtyp, m3gp5] at hw
  have r4 : ¬ mRAR4 <+: (sample.take 8 ++ u).take 14 := fun hp => r0 (List.IsPrefix.trans ⟨[0], rfl⟩ hp)
  have r5 : ¬ mRAR5 <+: (sample.take 8 ++ u).take 14 := fun hp => r0 (List.IsPrefix.trans ⟨[1, 0], rfl⟩ hp)
  unfold MediaFile.kind
  dsimp only
  rw [if_neg (by rw [List.length_take]; omega), if_neg (fun hh => r4 hh.1), if_neg r5]
  unfold markerKind
  rw [if_neg (by rw [e _ (by decide)]; exact k1), if_neg (by rw [e _ (by decide)]; exact k2),
    if_pos (by rw [e4, e _ (by decide)]; exact k3)]

/-- C76, FLAC: also with an ID3v2 tag in front. -/
theorem flac_srs_kind {dig : Nat → Bool} {lower : Str → Str} {app name path srsPath : Str} {sample srs : Bytes} {fp : Option (Nat × Bytes)}
    {big : Bool} {check : Option Bytes}
    (hk : MediaFile.kind dig lower ⟨path, sample, none⟩ = .ok .flac)
    (h : srsFlacCreate app name sample fp big check = .ok srs) :
    MediaFile.kind dig lower ⟨srsPath, srs, none⟩ = .ok .flac := by
  obtain ⟨h14, hk⟩ := kind_known (by simp) hk
  have hc : ∃ c ts, flacCreateSrs app name sample.length c ts fp big sample = .ok srs := by
    unfold srsFlacCreate at h
    split at h
    · simp at h
    · simp only [bind_eq_ok] at h
      obtain ⟨⟨crc, ts⟩, _, h⟩ := h
      dsimp only at h
      split at h
      · simp at h
      · simp only [bind_eq_ok] at h
        obtain ⟨ts', _, h⟩ := h
        exact ⟨_, _, h⟩
  obtain ⟨c, ts, hc⟩ := hc
  rcases markerKind_flac hk with ⟨hf, h4⟩ | ⟨h4, hi, n, hn, hf⟩
  · obtain ⟨ins, rest, hins, rfl⟩ := flac_srs_start (hf.trans (List.take_prefix _ _)) hc
    obtain ⟨hin, r, rfl⟩ := flacInsert_long hins
    obtain ⟨t, _, ht⟩ := kind_starts (dig := dig) (lower := lower) (path := srsPath) (p := mFLaC ++ [0x73]) (file := mFLaC ++ (0x73 :: r ++ rest))
      (by simp only [List.length_append, mFLaC, List.length_cons, List.length_nil] at hin ⊢; omega) ⟨r ++ rest, by simp⟩ (by decide)
      (not_rar (a := 0x66) (b := 0x4C) (p := [0x61, 0x43]) (List.prefix_append mFLaC _) (by decide))
    rw [ht]
    simp [markerKind, mMKV, mRIFF, mFtyp, m3gp5, mWMV, mFLaC]
  · have hsl : slice (sample.take 14) 6 10 = slice sample 6 10 := by simp [slice, List.take_take]
    rw [hsl] at hn
    obtain ⟨ins, rest, hins, rfl⟩ := flac_srs_tag (hi.trans (List.take_prefix _ _)) hn hf hc
    have hin := (flacInsert_long hins).1
    have hlen : 10 + n + 4 ≤ sample.length := by
      have := congrArg List.length hf
      rw [readAt_length] at this
      simp only [mFLaC, List.length_cons, List.length_nil] at this
      omega
    have hpl : (sample.take (10 + n)).length = 10 + n := by rw [List.length_take]; omega
    -- the two files have the same first ten bytes
    have e10 : (sample.take (10 + n) ++ (mFLaC ++ (ins ++ rest))).take 10 = sample.take 10 := by
      rw [List.take_append_of_le_length (by omega), List.take_take, Nat.min_eq_left (by omega)]
    have s14 : sample.take 14 = sample.take 10 ++ (sample.drop 10).take 4 := by rw [← List.take_add]
    have l10 : (sample.take 10).length = 10 := by rw [List.length_take]; omega
    rw [tagged_kind (n := n) (by simp only [List.length_append, hpl]; omega) e10 ?_ ?_ ?_,
      if_pos (readAt_append (n := 4) _ mFLaC _ hpl rfl)]
    · rw [s14, prefix_first (by rw [l10]; decide)] at hi
      exact hi
    · intro hh
      apply h4
      rw [s14, List.drop_append_of_le_length (by omega)]
      exact hh.trans (List.prefix_append _ _)
    · rw [← hn]
      simp [slice, List.take_take]

/-- C76, MP3: an MP3 file with any tags.  The sample must have been recognised itself.  Behind tags
in front there must be sound data; without them it may start with anything but "SRS". -/
theorem mp3_srs_kind {dig : Nat → Bool} {lower : Str → Str} {app name path srsPath : Str} {front : List Bytes} {sound srs : Bytes} {t : Tags}
    {fp : Option (Nat × Bytes)} {big : Bool} {check : Option Bytes} (ht : Tagged front sound t) (hs : SoundIn front sound)
    (hk : MediaFile.kind dig lower ⟨path, mp3File front sound t, none⟩ = .ok .mp3)
    (h : srsMp3Create app name (mp3File front sound t) fp big check = .ok srs) :
    MediaFile.kind dig lower ⟨srsPath, srs, none⟩ = .ok .mp3 := by
  obtain ⟨h14, hk⟩ := kind_known (by simp) hk
  obtain ⟨f, d, us, td, rfl, hfl, hdl, hf, hd, hnum, hsig, hlen, hu⟩ := mp3_created ht hs h
  have h18 := fileParse_long hf
  have hsf := sblk_length (m := mSRSF) (d := f) rfl
  cases front with
  | nil =>
    have e : mp3File [] (partBytes (srsParts ((mSRSF, f) :: (mSRST, d) :: us))) t =
        mSRSF ++ (le 4 (8 + f.length) ++ (f ++ (partBytes (srsParts ((mSRST, d) :: us)) ++ t.bytes))) := by
      simp [mp3File, srsParts, sblk]
    rw [e]
    obtain ⟨a, b, c, l4⟩ : ∃ a b c : UInt8, le 4 (8 + f.length) = [a, b, c, 0] := by
      refine ⟨UInt8.ofNat (8 + f.length), UInt8.ofNat ((8 + f.length) / 256), UInt8.ofNat ((8 + f.length) / 256 / 256), ?_⟩
      simp only [le]
      rw [show (8 + f.length) / 256 / 256 / 256 = 0 by omega]
      rfl
    rw [l4]
    obtain ⟨w, _, hw⟩ := kind_starts (dig := dig) (lower := lower) (path := srsPath) (p := mSRSF ++ [a, b, c, 0])
      (file := mSRSF ++ ([a, b, c, 0] ++ (f ++ (partBytes (srsParts ((mSRST, d) :: us)) ++ t.bytes))))
      (by simp only [List.length_append, mSRSF, List.length_cons, List.length_nil]; omega)
      ⟨f ++ (partBytes (srsParts ((mSRST, d) :: us)) ++ t.bytes), by simp⟩ (by simp [mSRSF])
      (not_rar (a := 0x53) (b := 0x52) (p := [0x53, 0x46]) (List.prefix_append mSRSF _) (by decide))
    rw [hw]
    simp [markerKind, mMKV, mRIFF, mFtyp, m3gp5, mWMV, mFLaC, mSRSF, mStreamSrs, mM2tsSrs, mID3]
  | cons g front =>
    have hg := ht.front_ g (by simp)
    obtain ⟨n, hn, hid, hsz⟩ := id3_parts hg (pre := []) (pos := 0) (post := []) rfl
    simp only [List.nil_append, List.append_nil, Nat.zero_add] at hid hsz
    have hten : ∀ mid : Bytes, (mp3File (g :: front) mid t).take 10 = g.take 10 := by
      intro mid
      unfold mp3File
      rw [List.flatten_cons, List.append_assoc, List.take_append_of_le_length (by omega)]
    have l10 : (g.take 10).length = 10 := by rw [List.length_take]; omega
    have s14 : (mp3File (g :: front) sound t).take 14 = g.take 10 ++ ((mp3File (g :: front) sound t).drop 10).take 4 := by
      rw [← hten sound, ← List.take_add]
    have h3 : mID3 <+: g.take 10 := by
      rw [← hid]
      unfold readAt
      rw [List.drop_zero]
      exact ⟨(g.take 10).drop 3, by rw [show g.take 3 = (g.take 10).take 3 by rw [List.take_take]; rfl, List.take_append_drop]⟩
    have a1 : 14 ≤ (mp3File (g :: front) (partBytes (srsParts ((mSRSF, f) :: (mSRST, d) :: us))) t).length := by
      simp only [mp3File, List.flatten_cons, List.length_append, srsParts, List.map_cons, partBytes_cons]; omega
    have a2 : ¬ mFtyp <+: (g.take 10).drop 4 := by
      intro hh
      rcases markerKind_mp3 hk with hm | hm
      · rw [s14, prefix_first (by rw [l10]; decide)] at hm
        obtain ⟨x, hx⟩ := h3
        rw [← hx] at hm
        simp [mRIFF, mID3] at hm
      · apply hm
        rw [s14, List.drop_append_of_le_length (by omega)]
        exact hh.trans (List.prefix_append _ _)
    have a3 : decodeId3Size (slice (g.take 10) 6 10) = .ok n := by
      rw [← hsz]
      congr 1
      simp [slice, readAt, List.take_take, List.drop_take]
    -- behind the tag there is another tag or the data of the SRS
    have a4 : ¬ readAt (mp3File (g :: front) (partBytes (srsParts ((mSRSF, f) :: (mSRST, d) :: us))) t) (10 + n) 4 = mFLaC := by
      unfold mp3File
      rw [List.flatten_cons, List.append_assoc, ← hn, readAt_append_drop]
      cases front with
      | nil => simp [srsParts, sblk, mSRSF, mFLaC]
      | cons g' front =>
        obtain ⟨v, a, b, c, d, body, hv, ha, hb, hc, hd, hbody, rfl⟩ := ht.front_ g' (by simp)
        simp [mFLaC]
    rw [tagged_kind a1 (hten _) h3 a2 a3, if_neg a4]

/-! ### The two commands together -/

/-- Which function makes the SRS. -/
theorem made_by {dig : Nat → Bool} {lower : Str → Str} {app path : Str} {sample srs : Bytes} {fp : Option (Nat × Bytes)} {big : Bool}
    {check : Option MediaFile} {k : SampleKind} (hk : MediaFile.kind dig lower ⟨path, sample, none⟩ = .ok k)
    (h : srsMake dig lower app path sample fp big check = .ok srs) :
    ∃ sig c, vobCheck dig lower k path sig check = .ok c ∧ match (generalizing := false) k with
      | .stream => srsCreate app (basename path) sample big c = .ok srs
      | .avi => srsAviCreate app (basename path) sample big c = .ok srs
      | .mp4 => srsMp4Create app (basename path) sample big c = .ok srs
      | .wmv => srsWmvCreate app (basename path) sample big c = .ok srs
      | .mkv => srsMkvCreate app (basename path) sample big c = .ok srs
      | .flac => srsFlacCreate app (basename path) sample fp big c = .ok srs
      | .mp3 => srsMp3Create app (basename path) sample fp big c = .ok srs
      | .m2ts => False
      | .unknown => False := by
  unfold srsMake at h
  rw [hk, ok_bind] at h
  cases k
  case m2ts => simp at h
  case unknown => simp at h
  all_goals
    simp only [bind_eq_ok] at h
    obtain ⟨x, _, c, hc, h⟩ := h
    exact ⟨_, c, hc, h⟩

theorem wmv_sample_long {app name : Str} {sample srs : Bytes} {big : Bool} {check : Option Bytes} (hl : 0 < sample.length)
    (h : srsWmvCreate app name sample big check = .ok srs) : 24 ≤ sample.length := by
  unfold srsWmvCreate at h
  split at h
  · simp at h
  simp only [bind_eq_ok] at h
  obtain ⟨x, hx, _⟩ := h
  refine Nat.le_of_not_lt fun hlt => ?_
  unfold wmvProfile wmvProfileLoop asfRead at hx
  rw [if_pos (by omega)] at hx
  simp only [bind_eq_ok, pure_eq_ok, Except.ok.injEq] at hx
  obtain ⟨s, ⟨o, ho, hs⟩, hx⟩ := hx
  subst ho
  simp only [Except.ok.injEq] at hs
  subst hs
  rw [if_pos (by simp; intro hh; subst hh; simp at hl)] at hx
  simp at hx

/-- The rebuild command with files of one kind. -/
theorem restore_same_kind {dig : Nat → Bool} {lower : Str → Str} {srsPath : Str} {srs : Bytes} {movie : MediaFile} {ig : Bool} {k : SampleKind}
    (hu : k ≠ .unknown) (hs : MediaFile.kind dig lower ⟨srsPath, srs, none⟩ = .ok k)
    (hm : movie.kind dig lower = .ok k ∨ (k = .stream ∧ movie.kind dig lower = .ok .unknown)) (hp : isRar dig movie.path = false) :
    srsRestore dig lower srsPath srs movie ig = some (rebuildAs k srs movie.raw ig) := by
  have hd : movie.data dig = .ok movie.raw := by unfold MediaFile.data; rw [if_neg (by rw [hp]; simp)]
  unfold srsRestore
  rw [hs]
  rcases hm with hm | ⟨rfl, hm⟩
  · rw [hm]
    dsimp only
    rw [if_neg hu, if_neg (fun hh => hu hh.1), if_neg hu, if_pos rfl, hd]
  · rw [hm]
    dsimp only
    rw [if_neg hu, if_neg (by simp), if_pos rfl, if_pos rfl, hd]

/-- C76, full statement: the rebuild command treats an SRS as a file of the kind of the sample. -/
def restore_uses_reader : Prop :=
  ∀ (dig : Nat → Bool) (lower : Str → Str) (app path srsPath : Str) (sample srs : Bytes) (fp : Option (Nat × Bytes)) (big ig : Bool)
    (check : Option MediaFile) (movie : MediaFile) (k : SampleKind),
    MediaFile.kind dig lower ⟨path, sample, none⟩ = .ok k → movie.kind dig lower = .ok k → isRar dig movie.path = false →
    srsMake dig lower app path sample fp big check = .ok srs → str ".srs" <:+ lower srsPath →
    srsRestore dig lower srsPath srs movie ig = some (rebuildAs k srs movie.raw ig)

/-- C76: what the reader of the sample's kind rebuilds from the SRS and the movie is what the
command `srs x.srs movie` rebuilds: the SRS is recognised as the kind of file that its sample
is.  Not for MP3 files without the structure that `restore_mp3_partial` assumes, for MP4 files that start with
media data of 862416949 bytes, for names of SRS files that end in .mp3, and for SRS files that the reader cannot use. -/
theorem restore_uses_reader_partial {dig : Nat → Bool} {lower : Str → Str} {app path srsPath : Str} {sample srs : Bytes}
    {fp : Option (Nat × Bytes)} {big ig : Bool} {check : Option MediaFile} {movie : MediaFile} {k : SampleKind} {r : SrsResult}
    (hk : MediaFile.kind dig lower ⟨path, sample, none⟩ = .ok k)
    (hm : movie.kind dig lower = .ok k ∨ (k = .stream ∧ movie.kind dig lower = .ok .unknown)) (hp : isRar dig movie.path = false)
    (h : srsMake dig lower app path sample fp big check = .ok srs)
    (h3 : k ≠ .mp3) (h4 : k = .mp4 → ¬ [0x33, 0x67, 0x70, 0x35, 0x6D, 0x64, 0x61, 0x74] <+: sample) (hname : ¬ str ".mp3" <:+ srsPath)
    (hr : match (generalizing := false) k with
      | .stream => srsReconstruct srs movie.raw ig = .ok r
      | .avi => srsAviReconstruct srs movie.raw ig = .ok r
      | .mp4 => srsMp4Reconstruct srs movie.raw ig = .ok r
      | .wmv => srsWmvReconstruct srs movie.raw ig = .ok r
      | .mkv => srsMkvRestore srs movie.raw ig = .ok r
      | .flac => srsFlacReconstruct srs movie.raw = .ok r
      | _ => False) :
    srsRestore dig lower srsPath srs movie ig = some (.ok r) := by
  have hr : rebuildAs k srs movie.raw ig = .ok r := by
    cases k <;> first | exact hr | exact hr.elim
  obtain ⟨sig, c, _, hc⟩ := made_by hk h
  have hu : k ≠ .unknown := by rintro rfl; exact hc
  have h14 := (kind_known hu hk).1
  rw [restore_same_kind hu ?_ hm hp, hr]
  cases k
  case m2ts => exact hc.elim
  case unknown => exact hc.elim
  case mp3 => exact absurd rfl h3
  case stream => exact stream_srs_kind hc
  case flac => exact flac_srs_kind hk hc
  case wmv => exact wmv_srs_kind hk (wmv_sample_long (by omega) hc) hc
  case avi =>
    refine avi_srs_kind hk hc ?_ hname
    simp only [rebuildAs, srsAviReconstruct, bind_eq_ok] at hr
    obtain ⟨x, hx, _⟩ := hr
    have := avi_load_long hx
    omega
  case mp4 =>
    refine mp4_srs_kind hk (h4 rfl) hc ?_
    simp only [rebuildAs, srsMp4Reconstruct, bind_eq_ok] at hr
    obtain ⟨x, hx, _⟩ := hr
    have := mp4_load_long hx
    omega
  case mkv =>
    refine mkv_srs_kind hk hc ?_
    simp only [rebuildAs, srsMkvRestore, bind_eq_ok] at hr
    obtain ⟨⟨f, t⟩, hx, t', _, ⟨files, atts⟩, _, hr⟩ := hr
    split at hr
    · simp at hr
    cases f with
    | none => simp at hr
    | some f =>
      have := mkv_load_long hx
      omega

/-- C76 for MP3 files with any tags; when there are tags in front, sound data must follow them. -/
theorem restore_mp3_partial {dig : Nat → Bool} {lower : Str → Str} {app path srsPath : Str} {front : List Bytes} {sound srs : Bytes} {t : Tags}
    {fp : Option (Nat × Bytes)} {big ig : Bool} {check : Option MediaFile} {movie : MediaFile} (ht : Tagged front sound t) (hs : SoundIn front sound)
    (hk : MediaFile.kind dig lower ⟨path, mp3File front sound t, none⟩ = .ok .mp3) (hm : movie.kind dig lower = .ok .mp3)
    (hp : isRar dig movie.path = false) (h : srsMake dig lower app path (mp3File front sound t) fp big check = .ok srs) :
    srsRestore dig lower srsPath srs movie ig = some (srsMp3Reconstruct srs movie.raw) := by
  obtain ⟨sig, c, _, hc⟩ := made_by hk h
  exact restore_same_kind (by simp) (mp3_srs_kind ht hs hk hc) (Or.inl hm) hp

/-! ### What is checked with -c (C75) -/

theorem vobCheck_plain {dig : Nat → Bool} {lower : Str → Str} {k : SampleKind} {path : Str} {sig : Option Bytes} {check : Option MediaFile}
    (hv : ¬ str ".vob" <:+ lower path) : vobCheck dig lower k path sig check = checkFile dig lower k check := by
  unfold vobCheck vobIsRar
  rw [if_neg hv]
  rfl

/-- C75: with -c and a movie of the kind of the sample, the SRS is the one of the function that
refuses samples that are not found in the movie (`avi_check_refused` and the other theorems of
Props/SrsChecked).  For names that do not end in .vob. -/
theorem check_uses_movie {dig : Nat → Bool} {lower : Str → Str} {app path : Str} {sample srs : Bytes} {fp : Option (Nat × Bytes)} {big : Bool}
    {m : MediaFile} {k : SampleKind} (hk : MediaFile.kind dig lower ⟨path, sample, none⟩ = .ok k) (hv : ¬ str ".vob" <:+ lower path)
    (hm : m.kind dig lower = .ok k) (hp : isRar dig m.path = false) (h : srsMake dig lower app path sample fp big (some m) = .ok srs) :
    match (generalizing := false) k with
      | .stream => srsCreate app (basename path) sample big (some m.raw) = .ok srs
      | .avi => srsAviCreate app (basename path) sample big (some m.raw) = .ok srs
      | .mp4 => srsMp4Create app (basename path) sample big (some m.raw) = .ok srs
      | .wmv => srsWmvCreate app (basename path) sample big (some m.raw) = .ok srs
      | .mkv => srsMkvCreate app (basename path) sample big (some m.raw) = .ok srs
      | .flac => srsFlacCreate app (basename path) sample fp big (some m.raw) = .ok srs
      | .mp3 => srsMp3Create app (basename path) sample fp big (some m.raw) = .ok srs
      | .m2ts => False
      | .unknown => False := by
  obtain ⟨sig, c, hc, h⟩ := made_by hk h
  rw [vobCheck_plain hv] at hc
  have hd : m.data dig = .ok m.raw := by unfold MediaFile.data; rw [if_neg (by rw [hp]; simp)]
  unfold checkFile at hc
  dsimp only at hc
  rw [hm, ok_bind, if_neg (by simp), hd, ok_bind] at hc
  simp only [pure_eq_ok, Except.ok.injEq] at hc
  subst hc
  exact h

/-- C75: a movie of another kind is refused, unless the sample is a stream. -/
theorem check_kind_refused {dig : Nat → Bool} {lower : Str → Str} {app path : Str} {sample srs : Bytes} {fp : Option (Nat × Bytes)} {big : Bool}
    {m : MediaFile} {k mk : SampleKind} (hk : MediaFile.kind dig lower ⟨path, sample, none⟩ = .ok k) (hv : ¬ str ".vob" <:+ lower path)
    (hm : m.kind dig lower = .ok mk) (hne : mk ≠ k) (hs : k ≠ .stream) :
    srsMake dig lower app path sample fp big (some m) ≠ .ok srs := by
  intro h
  obtain ⟨sig, c, hc, h⟩ := made_by hk h
  rw [vobCheck_plain hv] at hc
  unfold checkFile at hc
  dsimp only at hc
  rw [hm, ok_bind, if_pos hne, if_pos hs] at hc
  simp at hc

/-- C75, violation: the SRS of a stream is made without searching when the movie is of another
format, as if -c were not given. -/
theorem check_stream_skipped {dig : Nat → Bool} {lower : Str → Str} {app path : Str} {sample : Bytes} {fp : Option (Nat × Bytes)} {big : Bool}
    {m : MediaFile} (hk : MediaFile.kind dig lower ⟨path, sample, none⟩ = .ok .stream) (hv : ¬ str ".vob" <:+ lower path)
    (hm : m.kind dig lower = .ok .avi ∨ m.kind dig lower = .ok .mkv ∨ m.kind dig lower = .ok .mp4 ∨ m.kind dig lower = .ok .wmv ∨
      m.kind dig lower = .ok .mp3 ∨ m.kind dig lower = .ok .flac) :
    srsMake dig lower app path sample fp big (some m) = srsMake dig lower app path sample fp big none := by
  have hc : checkFile dig lower .stream (some m) = .ok none := by
    unfold checkFile
    dsimp only
    rcases hm with hm | hm | hm | hm | hm | hm <;> rw [hm] <;> rfl
  unfold srsMake
  rw [hk, ok_bind]
  simp only [vobCheck_plain hv, hc]
  rfl

/-- C75, violation: a .vob sample that starts with the mark of a RAR archive is not searched for. -/
theorem check_vob_rar_skipped {dig : Nat → Bool} {lower : Str → Str} {app path : Str} {sample : Bytes} {fp : Option (Nat × Bytes)} {big : Bool}
    (hk : MediaFile.kind dig lower ⟨path, sample, none⟩ = .ok .stream) (hv : str ".vob" <:+ lower path)
    (hr : [0x52, 0x61, 0x72, 0x21] <+: sample) (m : MediaFile) :
    srsMake dig lower app path sample fp big (some m) = srsMake dig lower app path sample fp big none := by
  unfold srsMake
  rw [hk, ok_bind]
  dsimp only
  have hsig : [0x52, 0x61, 0x72, 0x21].isPrefixOf (sample.take 256) = true := by
    obtain ⟨u, rfl⟩ := hr
    simp [List.isPrefixOf]
  have hc : ∀ c, vobCheck dig lower .stream path (some (sample.take 256)) c = .ok none := by
    intro c
    unfold vobCheck vobIsRar
    rw [if_pos hv]
    dsimp only
    rw [hsig]
    rfl
  unfold streamProfile
  simp only [bind_assoc, pure_bind, List.find?_cons_of_pos, BEq.rfl, Option.map_some, hc]
  rfl

/-! ### Files that are taken for something else -/

/-- C76, violation: a stream that starts with eleven set bits is taken for an MP3 file, whatever
its name. -/
theorem stream_taken_for_mp3 {dig : Nat → Bool} {lower : Str → Str} {path : Str} {b : UInt8} {rest : Bytes} (hb : 0xE0 ≤ b.toNat)
    (hl : 12 ≤ rest.length) (hf : ¬ mFtyp <+: rest.drop 2) :
    MediaFile.kind dig lower ⟨path, 0xFF :: b :: rest, none⟩ = .ok .mp3 := by
  have hr := not_rar (a := 0xFF) (b := b) (p := []) (file := 0xFF :: b :: rest) ⟨rest, rfl⟩ (by simp)
  rw [kind_eq (by simp only [List.length_cons]; omega) (by exact hr)]
  dsimp only
  have hs : isSync (List.take 14 (0xFF :: b :: rest)) = true := by
    simp [isSync, e0_bits b hb]
  unfold markerKind
  rw [if_neg (by simp [mMKV]), if_neg (by simp [mRIFF]), if_neg ?_, if_neg (by simp [mWMV]), if_neg (by simp [mFLaC]),
    if_neg (by simp [mStreamSrs]), if_neg (by simp [mM2tsSrs]), if_neg (by simp [mID3]), if_neg (by simp [mSRSF]),
    if_neg (by simp only [List.length_take, List.length_cons]; omega), if_pos hs]
  rintro (hh | hh)
  · apply hf
    simp only [List.take_succ_cons, List.drop_succ_cons] at hh
    rw [List.drop_take] at hh
    exact hh.trans (List.take_prefix _ _)
  · simp [m3gp5] at hh

/-- C76, violation: an MP3 or FLAC file with an ID3v2 tag in a RAR archive stops the program. -/
theorem tagged_music_in_rar {dig : Nat → Bool} {lower : Str → Str} {path : Str} {raw d : Bytes} (hr : mRAR4 <+: raw) (hl : 14 ≤ raw.length)
    (hp : isRar dig path = true) (hd : mID3 <+: d) (h4 : ¬ mFtyp <+: d.drop 4) :
    MediaFile.kind dig lower ⟨path, raw, some d⟩ = .error .typeError := by
  have hm : mRAR4 <+: raw.take 14 := by
    rw [List.prefix_take_iff]
    exact ⟨hr, by decide⟩
  unfold MediaFile.kind
  dsimp only
  rw [if_neg (by rw [List.length_take]; omega), if_pos ⟨hm, hp⟩]
  obtain ⟨u, rfl⟩ := hd
  unfold markerKind
  rw [if_neg (by simp [mMKV, mID3]), if_neg (by simp [mRIFF, mID3]), if_neg ?_, if_neg (by simp [mWMV, mID3]), if_neg (by simp [mFLaC, mID3]),
    if_neg (by simp [mStreamSrs, mID3]), if_neg (by simp [mM2tsSrs, mID3]), if_pos ?_]
  · have : ∀ x : Bytes, x.length ≤ 8 → decodeId3Size (slice x 6 10) = .error .typeError := by
      intro x hx
      unfold decodeId3Size slice
      split
      · rename_i h
        have := congrArg List.length h
        simp only [List.length_drop, List.length_take, List.length_cons] at this
        omega
      · rfl
    rw [this _ (by rw [List.length_take]; omega)]
    rfl
  · exact ⟨u.take 5, by simp [mID3]⟩
  · rintro (hh | hh)
    · apply h4
      rw [List.drop_take] at hh
      exact hh.trans (List.take_prefix _ _)
    · simp [m3gp5, mID3] at hh

/-- C76, violation: a RIFF file is taken for AVI or MP3 only by its name. -/
theorem riff_by_name {dig : Nat → Bool} {lower : Str → Str} {path : Str} {rest : Bytes} (hl : 10 ≤ rest.length) :
    MediaFile.kind dig lower ⟨path, mRIFF ++ rest, none⟩ = .ok (if str ".mp3" <:+ path then .mp3 else .avi) := by
  have hr := not_rar (a := 0x52) (b := 0x49) (p := [0x46, 0x46]) (file := mRIFF ++ rest) ⟨rest, rfl⟩ (by simp)
  rw [kind_eq (by simp only [List.length_append, mRIFF, List.length_cons, List.length_nil]; omega) (by exact hr)]
  dsimp only
  unfold markerKind
  rw [if_neg (by simp [mMKV, mRIFF]), if_pos ⟨rest.take 10, by simp [mRIFF]⟩]
  split <;> rfl

/-! ### Examples -/

/-- Digits, for the examples. -/
def exDigit (c : Nat) : Bool := decide (48 ≤ c) && decide (c ≤ 57)

set_option maxRecDepth 100000 in
/-- The hypotheses of `restore_uses_reader_partial` are met by an AVI file. -/
example : ∃ srs r, MediaFile.kind exDigit id ⟨str "/x/s.avi", aviBytes aviExample, none⟩ = .ok .avi ∧
    srsMake exDigit id (str "app") (str "/x/s.avi") (aviBytes aviExample) none false none = .ok srs ∧
    srsAviReconstruct srs (aviBytes aviExample) false = .ok r ∧ r.good = true ∧ r.file = aviBytes aviExample ∧
    srsRestore exDigit id (str "s.srs") srs ⟨str "/x/m.avi", aviBytes aviExample, none⟩ false = some (.ok r) := by
  have hk : ∀ p, (p = str "/x/s.avi" ∨ p = str "/x/m.avi") → MediaFile.kind exDigit id ⟨p, aviBytes aviExample, none⟩ = .ok .avi := by
    rintro p (rfl | rfl) <;> decide +kernel
  have hm : (srsMake exDigit id (str "app") (str "/x/s.avi") (aviBytes aviExample) none false none).isOk = true := by decide +kernel
  cases hs : srsMake exDigit id (str "app") (str "/x/s.avi") (aviBytes aviExample) none false none with
  | error e => rw [hs] at hm; simp [Except.isOk, Except.toBool] at hm
  | ok srs =>
    obtain ⟨sig, c, hc, h⟩ := made_by (hk _ (Or.inl rfl)) hs
    rw [vobCheck_plain (by decide)] at hc
    simp only [checkFile, Except.ok.injEq] at hc
    subst hc
    have hr := avi_self_rebuilt (ig := false) aviExample_plain h ?_ ⟨0, ?_⟩ (by decide)
    · exact ⟨srs, _, hk _ (Or.inl rfl), rfl, hr, rfl, rfl,
        restore_uses_reader_partial (hk _ (Or.inl rfl)) (Or.inl (hk _ (Or.inr rfl))) (by decide +kernel) hs (by simp) (by simp) (by decide) hr⟩
    · intro n hn
      have := track_small (k := 2) (by decide) hn
      match n, this with
      | 0, _ => decide
      | 1, _ => decide
    · decide

set_option maxRecDepth 100000 in
/-- A stream, checked against a movie of the same kind and against an AVI file. -/
example : ∃ srs srs', srsMake exDigit id (str "app") (str "/x/s.vob") [1, 2, 3, 4, 5, 6, 7, 8, 9, 10, 11, 12, 13, 14, 15] none false
      (some ⟨str "/x/m.vob", [9, 9, 1, 2, 3, 4, 5, 6, 7, 8, 9, 10, 11, 12, 13, 14, 15, 1], none⟩) = .ok srs ∧
    srsMake exDigit id (str "app") (str "/x/s.vob") [1, 2, 3, 4, 5, 6, 7, 8, 9, 10, 11, 12, 13, 14, 15] none false
      (some ⟨str "/x/m.avi", aviBytes aviExample, none⟩) = .ok srs' ∧ srs ≠ srs' := by
  refine ⟨_, _, rfl, rfl, ?_⟩
  decide +kernel

end Rescene.Props
