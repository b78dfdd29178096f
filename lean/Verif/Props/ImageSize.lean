import Verif.Model.ImageSize
import Verif.Spec.ImageSize
/-
C90: reading the size of an image always ends, and gives the size that the file states.
-/
namespace Rescene.Props
open Rescene Rescene.Spec

theorem skipFF_length {b : Bytes} {t : UInt8} {r : Bytes} (h : skipFF b = some (t, r)) : r.length < b.length := by
  fun_induction skipFF b with
  | case1 => cases h
  | case2 rest ih => have := ih h; simp; omega
  | case3 b rest hb => cases h; simp

/-- Every step of the search goes forward, also over sizes that point back. -/
theorem jpeg_step_forward {data : Bytes} {pos : Nat} {size : Int} {t : UInt8} {s : Int} {q : Nat} (hs : -2 ≤ size)
    (h : jpegStep data pos size = some (t, s, q)) : pos < q ∧ q ≤ data.length ∧ -2 ≤ s := by
  unfold jpegStep at h
  split at h
  · cases h
  · rename_i hp
    split at h
    · rename_i hi lo rest hk
      cases h
      have hl := skipFF_length hk
      simp only [List.length_drop, List.length_cons] at hl
      omega
    · cases h

theorem jpegLoop_ends {data : Bytes} {fuel pos : Nat} {size : Int} {t : UInt8} (hs : -2 ≤ size) (hp : pos ≤ data.length)
    (hf : data.length - pos + 1 < fuel) : ∃ r, jpegLoop data fuel pos size t = .ok r := by
  induction fuel generalizing pos size t with
  | zero => omega
  | succ fuel ih =>
    unfold jpegLoop
    split
    · split
      · exact ⟨_, rfl⟩
      · rename_i t' s' q' hstep
        obtain ⟨h1, h2, h3⟩ := jpeg_step_forward hs hstep
        exact ih h3 h2 (by omega)
    · exact ⟨_, rfl⟩

/-- Reading the size of an image ends for every file. -/
theorem image_size_ends (std : Bytes → Option ImageKind) (data : Bytes) : ∃ r, imageSize std data = .ok r := by
  have hj : ∃ r, jpegSize data = .ok r := by
    unfold jpegSize
    obtain ⟨r, hr⟩ := jpegLoop_ends (data := data) (fuel := data.length + 2) (pos := 0) (size := 2) (t := 0) (by omega) (by omega) (by omega)
    rw [hr]
    cases r with
    | none => exact ⟨_, rfl⟩
    | some pos =>
      simp only [ok_bind]
      split <;> exact ⟨_, rfl⟩
  unfold imageSize
  dsimp only
  split
  · exact ⟨_, rfl⟩
  · split
    · split <;> exact ⟨_, rfl⟩
    · exact ⟨_, rfl⟩
    · exact hj
    · exact ⟨_, rfl⟩

/-- The markers that end the search are those of frames. -/
theorem not_frame_iff (t : UInt8) : notFrame t = false ↔ t ∈ frameMarkers := by
  revert t
  have : ∀ n : Fin 256, notFrame (UInt8.ofNat n.val) = false ↔ UInt8.ofNat n.val ∈ frameMarkers := by decide +kernel
  intro t
  have := this ⟨t.toNat, t.toNat_lt⟩
  simpa using this

theorem skipFF_fill (n : Nat) (t : UInt8) (ht : t ≠ 0xFF) (r : Bytes) : skipFF (List.replicate n 0xFF ++ t :: r) = some (t, r) := by
  induction n with
  | zero => simp [skipFF, ht]
  | succ n ih => simp [List.replicate_succ, skipFF, ih]

theorem be16_value {n : Nat} (h : n < 65536) : (UInt8.ofNat (n / 256)).toNat * 256 + (UInt8.ofNat n).toNat = n := by
  simp only [UInt8.toNat_ofNat']
  omega

theorem jpegStep_marker {data pre post : Bytes} {pos fill n : Nat} {size : Int} {t : UInt8} (ht : t ≠ 0xFF) (hn : n < 65536)
    (hd : data = pre ++ (List.replicate (fill + 1) 0xFF ++ t :: be16 n ++ post)) (hp : (pos : Int) + size = pre.length) :
    jpegStep data pos size = some (t, (n : Int) - 2, pre.length + (fill + 4)) := by
  unfold jpegStep
  rw [if_neg (by omega)]
  have hdrop : data.drop ((pos : Int) + size).toNat = List.replicate (fill + 1) 0xFF ++ t :: (be16 n ++ post) := by
    rw [hp, hd]; simp
  rw [hdrop, skipFF_fill _ _ ht]
  simp only [be16, List.cons_append, List.nil_append]
  rw [be16_value hn]
  have hl : data.length - post.length = pre.length + (fill + 4) := by
    rw [hd]; simp [be16]; omega
  rw [hl]

theorem jpegLoop_finds {data : Bytes} (segs : List Segment) (hsegs : ∀ s ∈ segs, s.Before) {fill n : Nat} {t : UInt8}
    (ht : t ∈ frameMarkers) (hn : n < 65536) {pre post : Bytes} {fuel pos : Nat} {size : Int} {t0 : UInt8} (ht0 : notFrame t0 = true)
    (hd : data = pre ++ (segs.flatMap Segment.bytes ++ (List.replicate (fill + 1) 0xFF ++ t :: be16 n ++ post)))
    (hp : (pos : Int) + size = pre.length) {r : Option Nat} (hr : jpegLoop data fuel pos size t0 = .ok r) :
    r = some (data.length - post.length) := by
  induction segs generalizing pre fuel pos size t0 with
  | nil =>
    have htf : t ≠ 0xFF := by rintro rfl; revert ht; decide
    cases fuel with
    | zero => simp [jpegLoop] at hr
    | succ fuel =>
      unfold jpegLoop at hr
      rw [if_pos ht0, jpegStep_marker htf hn (by simpa using hd) hp] at hr
      dsimp only at hr
      cases fuel with
      | zero => simp [jpegLoop] at hr
      | succ fuel =>
        unfold jpegLoop at hr
        rw [if_neg (by rw [(not_frame_iff t).2 ht]; decide)] at hr
        cases hr
        rw [hd]; simp [be16]; omega
  | cons s segs ih =>
    obtain ⟨hm, hnf, hl⟩ := hsegs s (by simp)
    cases fuel with
    | zero => simp [jpegLoop] at hr
    | succ fuel =>
      unfold jpegLoop at hr
      rw [if_pos ht0, jpegStep_marker (fill := s.fill) hm hl (pre := pre)
        (post := s.payload ++ (segs.flatMap Segment.bytes ++ (List.replicate (fill + 1) 0xFF ++ t :: be16 n ++ post)))
        (by rw [hd]; simp [Segment.bytes]) hp] at hr
      dsimp only at hr
      have hnf' : notFrame s.marker = true := by
        cases hc : notFrame s.marker with
        | true => rfl
        | false => exact absurd ((not_frame_iff _).1 hc) hnf
      refine ih (fun x hx => hsegs x (by simp [hx])) (pre := pre ++ s.bytes) hnf' (by rw [hd]; simp) ?_ hr
      simp [Segment.bytes, be16]; omega

/-- For every JPEG file that the library takes for one, the size is that of the frame. -/
theorem jpeg_size (std : Bytes → Option ImageKind) (j : Jpeg) (hv : j.Valid) (hl : 24 ≤ j.bytes.length)
    (hk : imageKind std (j.bytes.take 24) = some .jpeg) : imageSize std j.bytes = .ok (some ((j.width : Int), (j.height : Int))) := by
  obtain ⟨h1, h2, h3, h4, h5⟩ := hv
  unfold imageSize
  dsimp only
  rw [if_neg (by simp; omega), hk]
  dsimp only
  unfold jpegSize
  obtain ⟨r, hr⟩ := jpegLoop_ends (data := j.bytes) (fuel := j.bytes.length + 2) (pos := 0) (size := 2) (t := 0) (by omega) (by omega) (by omega)
  obtain ⟨post, hpost⟩ : ∃ p, p = j.precision :: be16 j.height ++ be16 j.width ++ j.rest := ⟨_, rfl⟩
  have hbytes : j.bytes = [0xFF, 0xD8] ++ (j.segments.flatMap Segment.bytes ++ (List.replicate (j.fill + 1) 0xFF ++ j.marker :: be16 j.length ++ post)) := by
    rw [hpost]; simp [Jpeg.bytes]
  have := jpegLoop_finds j.segments h1 h2 h3 (by decide) hbytes (by simp) hr
  rw [hr, this]
  simp only [ok_bind]
  have hdrop : j.bytes.drop (j.bytes.length - post.length + 1) = be16 j.height ++ be16 j.width ++ j.rest := by
    have hle : post.length ≤ j.bytes.length := by rw [hbytes]; simp; omega
    have h0 : j.bytes.drop (j.bytes.length - post.length) = post := by
      have : j.bytes = ([0xFF, 0xD8] ++ (j.segments.flatMap Segment.bytes ++ (List.replicate (j.fill + 1) 0xFF ++ j.marker :: be16 j.length))) ++ post := by
        rw [hbytes]; simp
      rw [this, List.length_append, Nat.add_sub_cancel, List.drop_left]
    rw [← List.drop_drop, h0, hpost]; simp
  rw [hdrop]
  simp only [be16, List.cons_append, List.nil_append]
  rw [be16_value h4, be16_value h5]
  rfl

/-- JPEG files that start with a colour profile (`ICC_PROFILE`) or a segment of Adobe are recognised also when the library does not
know them. -/
theorem profile_kind (std : Bytes → Option ImageKind) (j : Jpeg) {s : Segment} {more : List Segment} (hseg : j.segments = s :: more) (hf : s.fill = 0)
    (hk : (s.marker = 0xE2 ∧ [0x49, 0x43, 0x43, 0x5F, 0x50, 0x52, 0x4F, 0x46, 0x49, 0x4C, 0x45] <+: s.payload) ∨
      (s.marker = 0xEE ∧ [0x41, 0x64, 0x6F, 0x62, 0x65] <+: s.payload))
    (hstd : std (j.bytes.take 24) = none ∨ std (j.bytes.take 24) = some .jpeg) : imageKind std (j.bytes.take 24) = some .jpeg := by
  unfold imageKind
  rcases hstd with h | h
  · rw [h]
    dsimp only
    unfold testJpeg
    rcases hk with ⟨hm, t, ht⟩ | ⟨hm, t, ht⟩
    · rw [if_pos]
      simp [Jpeg.bytes, hseg, Segment.bytes, hf, hm, ← ht, be16]
    · rw [if_neg, if_pos]
      · simp [Jpeg.bytes, hseg, Segment.bytes, hf, hm, ← ht, be16]
      · simp [Jpeg.bytes, hseg, Segment.bytes, hf, hm, ← ht, be16]
  · rw [h]

/-- A file that the library does not know is taken for a JPEG file only when it starts as such, with a colour profile or a segment of
Adobe, and for nothing else. -/
theorem kind_only {std : Bytes → Option ImageKind} {h : Bytes} {k : ImageKind} (hstd : std h = none) (hk : imageKind std h = some k) :
    k = .jpeg ∧ ∃ size rest, size.length = 2 ∧
      (h = [0xFF, 0xD8, 0xFF, 0xE2] ++ size ++ [0x49, 0x43, 0x43, 0x5F, 0x50, 0x52, 0x4F, 0x46, 0x49, 0x4C, 0x45] ++ rest ∨
        h = [0xFF, 0xD8, 0xFF, 0xEE] ++ size ++ [0x41, 0x64, 0x6F, 0x62, 0x65] ++ rest) := by
  have cut : ∀ (a b : Bytes) (n : Nat), a.length = 4 → b ≠ [] → h.take 4 = a → (h.drop 6).take n = b →
      ((h.drop 4).take 2).length = 2 ∧ h = a ++ (h.drop 4).take 2 ++ b ++ h.drop (6 + n) := by
    intro a b n ha hb h1 h2
    have hlen : 6 < h.length := by
      by_cases hl : 6 < h.length
      · exact hl
      · exfalso
        have : h.drop 6 = [] := List.drop_eq_nil_of_le (by omega)
        rw [this, List.take_nil] at h2
        exact hb h2.symm
    refine ⟨by rw [List.length_take, List.length_drop]; omega, ?_⟩
    rw [← h1, ← h2, List.append_assoc, List.append_assoc]
    have e1 : List.take n (h.drop 6) ++ h.drop (6 + n) = h.drop 6 := by
      rw [← List.drop_drop, List.take_append_drop]
    have e2 : List.take 2 (h.drop 4) ++ h.drop 6 = h.drop 4 := by
      have : h.drop 6 = (h.drop 4).drop 2 := by rw [List.drop_drop]
      rw [this, List.take_append_drop]
    rw [e1, e2, List.take_append_drop]
  unfold imageKind at hk
  rw [hstd] at hk
  dsimp only at hk
  unfold testJpeg at hk
  split at hk
  · rename_i hc
    obtain ⟨h1, h2⟩ := cut _ _ 11 rfl (by simp) hc.1 hc.2
    exact ⟨(Option.some.inj hk).symm, _, _, h1, Or.inl h2⟩
  · split at hk
    · rename_i hc
      obtain ⟨h1, h2⟩ := cut _ _ 5 rfl (by simp) hc.1 hc.2
      exact ⟨(Option.some.inj hk).symm, _, _, h1, Or.inr h2⟩
    · cases hk

theorem be32_value {n : Nat} (h : n < 2 ^ 31) :
    (((UInt8.ofNat (n / 16777216)).toNat * 256 + (UInt8.ofNat (n / 65536)).toNat) * 256 + (UInt8.ofNat (n / 256)).toNat) * 256 + (UInt8.ofNat n).toNat = n := by
  simp only [UInt8.toNat_ofNat']
  omega

/-- For every PNG file with a width and height that the format allows, the size is right. -/
theorem png_size (std : Bytes → Option ImageKind) (chunk : Bytes) (w h : Nat) (rest : Bytes) (hc : chunk.length = 8) (hw : w < 2 ^ 31)
    (hh : h < 2 ^ 31) (hk : imageKind std ((pngBytes chunk w h rest).take 24) = some .png) :
    imageSize std (pngBytes chunk w h rest) = .ok (some ((w : Int), (h : Int))) := by
  match chunk, hc with
  | [c0, c1, c2, c3, c4, c5, c6, c7], _ =>
    unfold imageSize
    dsimp only
    rw [if_neg (by simp [pngBytes, be32]), hk]
    dsimp only
    have e : (pngBytes [c0, c1, c2, c3, c4, c5, c6, c7] w h rest).take 24
      = [0x89, 0x50, 0x4E, 0x47, 0x0D, 0x0A, 0x1A, 0x0A, c0, c1, c2, c3, c4, c5, c6, c7] ++ be32 w ++ be32 h := by
      simp [pngBytes, be32]
    rw [e]
    rw [if_neg (by simp [signedBE])]
    simp only [signedBE, be32, List.cons_append, List.nil_append, List.drop_succ_cons, List.drop_zero]
    rw [be32_value hw, be32_value hh, if_pos hw, if_pos hh]

/-- For every GIF file, the size is right. -/
theorem gif_size (std : Bytes → Option ImageKind) (sign : Bytes) (w h : Nat) (rest : Bytes) (hs : sign.length = 6) (hw : w < 65536)
    (hh : h < 65536) (hl : 14 ≤ rest.length) (hk : imageKind std ((gifBytes sign w h rest).take 24) = some .gif) :
    imageSize std (gifBytes sign w h rest) = .ok (some ((w : Int), (h : Int))) := by
  match sign, hs with
  | [c0, c1, c2, c3, c4, c5], _ =>
    unfold imageSize
    dsimp only
    rw [if_neg (by simp [gifBytes, be16]; omega), hk]
    dsimp only
    simp only [gifBytes, be16, List.reverse_cons, List.reverse_nil, List.nil_append, List.cons_append, List.take_succ_cons,
      shortLE, List.drop_succ_cons, List.drop_zero]
    rw [be16_value hw, be16_value hh]

/-- A cover from a site is an image of exactly 630 by 1200. -/
theorem site_cover_iff (std : Bytes → Option ImageKind) (data : Bytes) :
    siteCover std data = .ok true ↔ imageSize std data = .ok (some (630, 1200)) := by
  obtain ⟨r, hr⟩ := image_size_ends std data
  unfold siteCover
  rw [hr]
  rcases r with _ | ⟨w, h⟩
  · simp
  · simp only [ok_bind, pure, Except.pure, Except.ok.injEq, Bool.and_eq_true, beq_iff_eq, Option.some.injEq, Prod.mk.injEq]

theorem site_cover_ends (std : Bytes → Option ImageKind) (data : Bytes) : ∃ b, siteCover std data = .ok b := by
  obtain ⟨r, hr⟩ := image_size_ends std data
  unfold siteCover
  rw [hr]
  rcases r with _ | ⟨w, h⟩ <;> exact ⟨_, rfl⟩

/-- The tests of the library for the kinds that matter, as in Python 3.10 (`JFIF` or `Exif`, PNG and GIF signatures). -/
def exStd (h : Bytes) : Option ImageKind :=
  if (h.drop 6).take 4 = [0x4A, 0x46, 0x49, 0x46] ∨ (h.drop 6).take 4 = [0x45, 0x78, 0x69, 0x66] then some .jpeg
  else if h.take 8 = [0x89, 0x50, 0x4E, 0x47, 0x0D, 0x0A, 0x1A, 0x0A] then some .png
  else if h.take 4 = [0x47, 0x49, 0x46, 0x38] then some .gif
  else none

/-- A JPEG file with a JFIF segment, a Huffman table (0xC4) and fill bytes. -/
def exJpeg : Jpeg :=
  { segments := [⟨0, 0xE0, [0x4A, 0x46, 0x49, 0x46, 0, 1, 1, 0, 0, 1, 0, 1, 0, 0]⟩, ⟨2, 0xC4, [1, 2, 3]⟩],
    fill := 1, marker := 0xC2, length := 17, precision := 8, height := 1200, width := 630, rest := [3, 1, 0x22] }

/-- The same file with a quantization table first. -/
def exDqt : Jpeg := { exJpeg with segments := [⟨0, 0xDB, List.replicate 65 7⟩] }

example : exJpeg.Valid ∧ 24 ≤ exJpeg.bytes.length ∧ imageKind exStd (exJpeg.bytes.take 24) = some .jpeg := by
  refine ⟨⟨?_, by decide, by decide, by decide, by decide⟩, by decide, by decide⟩
  intro s hs
  simp only [exJpeg, List.mem_cons, List.not_mem_nil, or_false] at hs
  rcases hs with rfl | rfl <;> exact ⟨by decide, by decide, by decide⟩

example : imageSize exStd exJpeg.bytes = .ok (some (630, 1200)) := by decide +kernel
example : siteCover exStd exJpeg.bytes = .ok true := by decide +kernel

example : imageKind exStd ((pngBytes [0, 0, 0, 13, 0x49, 0x48, 0x44, 0x52] 630 1200 [8, 6]).take 24) = some .png := by decide
example : imageKind exStd ((gifBytes [0x47, 0x49, 0x46, 0x38, 0x39, 0x61] 630 1200 (List.replicate 14 0)).take 24) = some .gif := by decide

/-- A file of Adobe, which the library does not know. -/
def exAdobe : Jpeg := { exJpeg with segments := [⟨0, 0xEE, [0x41, 0x64, 0x6F, 0x62, 0x65, 0, 100]⟩] }

example : exStd (exAdobe.bytes.take 24) = none ∧ imageSize exStd exAdobe.bytes = .ok (some (630, 1200)) := by decide +kernel

/-- A size of zero points back to itself: the search goes on one byte further. -/
example : imageSize exStd ([0xFF, 0xD8, 0xFF, 0xE0, 0, 0, 0x4A, 0x46, 0x49, 0x46] ++ List.replicate 30 0) = .ok none := by decide +kernel

/-- A JPEG file that starts with a quantization table has no size, although the code tests for it: the test
compares bytes with text. -/
theorem dqt_unknown : exDqt.Valid ∧ exDqt.width = 630 ∧ exDqt.height = 1200 ∧ exDqt.bytes.take 4 = [0xFF, 0xD8, 0xFF, 0xDB]
    ∧ imageSize exStd exDqt.bytes = .ok none ∧ siteCover exStd exDqt.bytes = .ok false := by
  refine ⟨⟨?_, by decide, by decide, by decide, by decide⟩, by decide, by decide, by decide +kernel, by decide +kernel, by decide +kernel⟩
  intro s hs
  simp only [exDqt, List.mem_cons, List.not_mem_nil, or_false] at hs
  subst hs
  exact ⟨by decide, by decide, by decide⟩

end Rescene.Props
