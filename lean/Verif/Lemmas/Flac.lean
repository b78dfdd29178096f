import Verif.Model.Flac
import Verif.Spec.Flac
import Verif.Lemmas.Bytes
import Verif.Lemmas.Crc
import Verif.Lemmas.StreamSrs
namespace Rescene
open Spec

@[simp] theorem FlacMeta.header_length (m : FlacMeta) : m.header.length = 4 := by
  simp [FlacMeta.header]

@[simp] theorem FlacMeta.bytes_length (m : FlacMeta) : m.bytes.length = 4 + m.data.length := by
  simp [FlacMeta.bytes]

@[simp] theorem metaBytes_nil : metaBytes [] = [] := rfl
@[simp] theorem metaBytes_cons (m : FlacMeta) (l : List FlacMeta) : metaBytes (m :: l) = m.bytes ++ metaBytes l := by
  simp [metaBytes]
@[simp] theorem metaBytes_append (l k : List FlacMeta) : metaBytes (l ++ k) = metaBytes l ++ metaBytes k := by
  simp [metaBytes]

theorem slice_zero {b : Bytes} {n : Nat} (h : b.length = n) : slice b 0 n = b := by
  simp [slice, ← h]

/-- The block that the reader makes of a metadata block. -/
def metaBlock (m : FlacMeta) (pos : Nat) : FlacBlock := ⟨.num m.ty, m.data.length, m.header, pos⟩

theorem metaBlock_contents (m : FlacMeta) {pre post : Bytes} {pos : Nat} (hp : pre.length = pos) :
    flacContents (pre ++ (m.bytes ++ post)) (metaBlock m pos) = m.data := by
  have e : pre ++ (m.bytes ++ post) = (pre ++ m.header) ++ (m.data ++ post) := by simp [FlacMeta.bytes]
  unfold flacContents metaBlock
  rw [e]
  exact readAt_append _ _ _ (by simp [hp]) rfl

theorem metaBlock_pos (m : FlacMeta) {pre post : Bytes} {pos : Nat} (hp : pre.length = pos) (n : FlacNext) :
    flacPos (pre ++ (m.bytes ++ post)) (metaBlock m pos) n = pos + m.bytes.length := by
  cases n <;> simp only [flacPos, metaBlock_contents m hp] <;> simp [metaBlock] <;> omega

theorem flacRead_meta {m : FlacMeta} (hm : m.Fine) {pre post : Bytes} {pos : Nat} (hp : pre.length = pos) :
    flacRead (pre ++ (m.bytes ++ post)) pos = .ok (some (metaBlock m pos)) := by
  obtain ⟨h1, h2, h3, h4, h5⟩ := hm
  have hlen : (pre ++ (m.bytes ++ post)).length = pos + (4 + m.data.length) + post.length := by simp [hp]; omega
  have e : pre ++ (m.bytes ++ post) = pre ++ (m.header ++ (m.data ++ post)) := by simp [FlacMeta.bytes]
  have hr : readAt (pre ++ (m.bytes ++ post)) pos 4 = m.ty :: be 3 m.data.length := by
    rw [e]; exact readAt_append _ _ _ hp (by simp)
  unfold flacRead
  rw [if_neg (by omega)]
  simp only [hr]
  have hid : mID3.isPrefixOf (m.ty :: be 3 m.data.length) = false := by
    simp only [mID3, List.isPrefixOf_cons_cons, Bool.and_eq_false_iff]
    left; simpa using Ne.symm h1
  have htg : mTAG.isPrefixOf (m.ty :: be 3 m.data.length) = false := by
    simp only [mTAG, List.isPrefixOf_cons_cons, Bool.and_eq_false_iff]
    left; simpa using Ne.symm h2
  rw [if_neg (by simp [mFLaC, h3]), hid, htg]
  simp only [Bool.false_eq_true, if_false, if_neg h4]
  have hu : unpackBeAt 4 (0 :: be 3 m.data.length) 0 = .ok m.data.length := by
    unfold unpackBeAt
    rw [if_pos (by simp), Nat.zero_add, slice_zero (by simp)]
    have e4 : (0 : UInt8) :: be 3 m.data.length = be 4 m.data.length := by
      simp only [be, le]
      have : m.data.length / 256 / 256 / 256 = 0 := by omega
      simp [this]
    rw [e4, ofBe_be_of_lt (by omega)]
  unfold flacMeta
  rw [List.drop_one, List.tail_cons, hu, ok_bind, if_neg (by omega)]
  simp [metaBlock, FlacMeta.header]

/-- One turn of a loop over a metadata block. -/
theorem flacLoop_meta {σ : Type} {file : Bytes} {body : σ → FlacBlock → Res (σ × FlacNext)} {m : FlacMeta}
    (hm : m.Fine) {pre post : Bytes} {pos : Nat} (hp : pre.length = pos) (hf : file = pre ++ (m.bytes ++ post))
    {s s' : σ} {n : FlacNext} (hb : body s (metaBlock m pos) = .ok (s', n)) (hn : n ≠ .stop) (fuel : Nat) :
    flacLoop file body (fuel + 1) pos s = flacLoop file body fuel (pos + m.bytes.length) s' := by
  rw [flacLoop]
  have hr := flacRead_meta hm (post := post) hp
  rw [← hf] at hr
  rw [hr, ok_bind]
  simp only [hb, ok_bind]
  rw [if_neg hn]
  have := metaBlock_pos m (post := post) hp n
  rw [← hf] at this
  rw [this]

/-- A loop over several metadata blocks. -/
theorem flacLoop_metas {σ : Type} {file : Bytes} {body : σ → FlacBlock → Res (σ × FlacNext)}
    (g : σ → FlacMeta → σ) (Inv : σ → Prop) (l : List FlacMeta) :
    ∀ (pre post : Bytes) (pos : Nat) (s : σ), (∀ m ∈ l, m.Fine) → pre.length = pos →
    file = pre ++ (metaBytes l ++ post) → Inv s →
    (∀ m ∈ l, ∀ (s : σ) (b : FlacBlock), Inv s → b.ty = .num m.ty → b.hdr = m.header →
      b.size = m.data.length → flacContents file b = m.data →
      Inv (g s m) ∧ ∃ n, n ≠ .stop ∧ body s b = .ok (g s m, n)) →
    ∀ fuel, flacLoop file body (l.length + fuel) pos s =
      flacLoop file body fuel (pos + (metaBytes l).length) (l.foldl g s) := by
  induction l with
  | nil => intro pre post pos s _ _ _ _ _ fuel; simp
  | cons m l ih =>
    intro pre post pos s hm hp hf hi hb fuel
    have hf' : file = pre ++ (m.bytes ++ (metaBytes l ++ post)) := by rw [hf]; simp
    obtain ⟨hi', n, hn, hbody⟩ := hb m (by simp) s (metaBlock m pos) hi rfl rfl rfl
      (by rw [hf']; exact metaBlock_contents m hp)
    rw [show (m :: l).length + fuel = (l.length + fuel) + 1 by simp; omega,
      flacLoop_meta (hm m (by simp)) hp hf' hbody hn,
      ih (pre ++ m.bytes) post (pos + m.bytes.length) (g s m) (fun x hx => hm x (by simp [hx]))
        (by simp [hp]) (by rw [hf']; simp) hi' (fun x hx => hb x (by simp [hx])) fuel]
    simp [Nat.add_assoc]

/-- The marker. -/
def magicBlock (pos : Nat) : FlacBlock := ⟨.magic, 0, mFLaC, pos⟩

theorem flacLoop_magic {σ : Type} {file : Bytes} {body : σ → FlacBlock → Res (σ × FlacNext)}
    {pre post : Bytes} {pos : Nat} (hp : pre.length = pos) (hf : file = pre ++ (mFLaC ++ post))
    {s s' : σ} {n : FlacNext} (hb : body s (magicBlock pos) = .ok (s', n)) (hn : n ≠ .stop) (fuel : Nat) :
    flacLoop file body (fuel + 1) pos s = flacLoop file body fuel (pos + 4) s' := by
  have hr : readAt file pos 4 = mFLaC := by rw [hf]; exact readAt_append _ _ _ hp rfl
  have hlen : file.length = pos + 4 + post.length := by rw [hf]; simp [hp, mFLaC]; omega
  have hread : flacRead file pos = .ok (some (magicBlock pos)) := by
    unfold flacRead
    rw [if_neg (by omega)]
    simp only [hr, if_true]
    rfl
  rw [flacLoop, hread, ok_bind]
  simp only [hb, ok_bind]
  rw [if_neg hn]
  have : flacPos file (magicBlock pos) n = pos + 4 := by
    cases n <;> simp [flacPos, magicBlock, flacContents, readAt, mFLaC]
  rw [this]

/-- An ID3v2 tag. -/
theorem flacRead_id3 {tag : Bytes} (ht : IsId3v2 tag) {pre post : Bytes} {pos : Nat} (hp : pre.length = pos) :
    ∃ raw : Bytes, raw.length = 10 ∧
    flacRead (pre ++ (tag ++ post)) pos = .ok (some ⟨.id3, tag.length - 10, raw, pos⟩) ∧
    10 ≤ tag.length ∧ raw <+: tag := by
  obtain ⟨v, a, b, c, d, body, hv, ha, hb, hc, hd, hbody, rfl⟩ := ht
  obtain ⟨v1, v2, v3, rfl⟩ : ∃ x y z, v = [x, y, z] := by
    match v, hv with
    | [x, y, z], _ => exact ⟨x, y, z, rfl⟩
  refine ⟨[0x49, 0x44, 0x33, v1, v2, v3, a, b, c, d], rfl, ?_, by simp, ⟨body, by simp⟩⟩
  generalize hfile : pre ++ ([0x49, 0x44, 0x33] ++ ([v1, v2, v3] ++ ([a, b, c, d] ++ body)) ++ post) = file
  have hlen : file.length = pos + 10 + body.length + post.length := by
    rw [← hfile]; simp [hp]; omega
  have r4 : readAt file pos 4 = [0x49, 0x44, 0x33, v1] := by
    rw [← hfile]
    have : pre ++ ([0x49, 0x44, 0x33] ++ ([v1, v2, v3] ++ ([a, b, c, d] ++ body)) ++ post) =
      pre ++ ([0x49, 0x44, 0x33, v1] ++ ([v2, v3] ++ ([a, b, c, d] ++ body) ++ post)) := by simp
    rw [this]; exact readAt_append _ _ _ hp rfl
  have r10 : readAt file pos 10 = [0x49, 0x44, 0x33, v1, v2, v3, a, b, c, d] := by
    rw [← hfile]
    have : pre ++ ([0x49, 0x44, 0x33] ++ ([v1, v2, v3] ++ ([a, b, c, d] ++ body)) ++ post) =
      pre ++ ([0x49, 0x44, 0x33, v1, v2, v3, a, b, c, d] ++ (body ++ post)) := by simp
    rw [this]; exact readAt_append _ _ _ hp rfl
  unfold flacRead
  rw [if_neg (by omega)]
  simp only [r4, r10]
  rw [if_neg (by simp [mFLaC])]
  have : mID3.isPrefixOf [0x49, 0x44, 0x33, v1] = true := by simp [mID3]
  rw [this]
  simp only [if_true, slice, List.take, List.drop, decodeId3Size, ok_bind, pure_eq_ok]
  congr 4
  simp only [List.length_append, List.length_cons, List.length_nil]
  omega

/-- An ID3v2 tag in a loop. -/
theorem flacLoop_id3 {σ : Type} {file : Bytes} {body : σ → FlacBlock → Res (σ × FlacNext)} {tag : Bytes}
    (ht : IsId3v2 tag) {pre post : Bytes} {pos : Nat} (hp : pre.length = pos) (hf : file = pre ++ (tag ++ post))
    {s s' : σ} (hb : ∀ b : FlacBlock, b.ty = .id3 → body s b = .ok (s', .skip)) (fuel : Nat) :
    flacLoop file body (fuel + 1) pos s = flacLoop file body fuel (pos + tag.length) s' := by
  obtain ⟨raw, hraw, hread, h10, _⟩ := flacRead_id3 ht (post := post) hp
  rw [← hf] at hread
  rw [flacLoop, hread, ok_bind]
  simp only [hb ⟨.id3, tag.length - 10, raw, pos⟩ rfl, ok_bind]
  rw [if_neg (by decide)]
  have : flacPos file ⟨.id3, tag.length - 10, raw, pos⟩ .skip = pos + tag.length := by
    simp only [flacPos, hraw]; omega
  rw [this]

theorem endsWithTag_iff {file : Bytes} (h : 128 ≤ file.length) :
    readAt file (file.length - 128) 3 = mTAG ↔ EndsWithTag file := by
  constructor
  · intro hr
    refine ⟨file.take (file.length - 128), (file.drop (file.length - 128)).drop 3, ?_, ?_⟩
    · have e : file.drop (file.length - 128) = mTAG ++ (file.drop (file.length - 128)).drop 3 := by
        rw [← hr]; unfold readAt; rw [List.take_append_drop]
      conv => lhs; rw [← List.take_append_drop (file.length - 128) file, e]
      rfl
    · simp; omega
  · rintro ⟨pre, post, rfl, hl⟩
    exact readAt_append _ _ _ (by simp; omega) rfl

/-- The frames, followed by nothing or by an ID3v1 tag. -/
theorem flacRead_frames {pre rest back file : Bytes} {pos : Nat} (hp : pre.length = pos)
    (hf : file = pre ++ ((0xFF :: rest) ++ back)) (hl : 128 ≤ file.length)
    (hb : (back = [] ∧ ¬ EndsWithTag file) ∨ (back.length = 128 ∧ [0x54, 0x41, 0x47] <+: back)) :
    flacRead file pos = .ok (some ⟨.num 0xFF, (0xFF :: rest).length, [], pos⟩) := by
  have hlen : file.length = pos + (rest.length + 1) + back.length := by rw [hf]; simp [hp]; omega
  have hr : ∃ t, readAt file pos 4 = 0xFF :: t := by
    rw [hf, ← hp, readAt_append_drop]
    exact ⟨(rest ++ back).take 3, rfl⟩
  obtain ⟨t, hr⟩ := hr
  unfold flacRead
  rw [if_neg (by omega)]
  simp only [hr]
  rw [if_neg (by simp [mFLaC])]
  have h1 : mID3.isPrefixOf ((0xFF : UInt8) :: t) = false := by
    simp only [mID3, List.isPrefixOf_cons_cons]; rw [Bool.and_eq_false_iff]; left; decide
  have h2 : mTAG.isPrefixOf ((0xFF : UInt8) :: t) = false := by
    simp only [mTAG, List.isPrefixOf_cons_cons]; rw [Bool.and_eq_false_iff]; left; decide
  rw [h1, h2]
  simp only [Bool.false_eq_true, if_false, if_true]
  unfold flacFrame
  rw [if_neg (by omega)]
  rcases hb with ⟨rfl, hno⟩ | ⟨hl128, post, hpost⟩
  · rw [if_neg (by rw [endsWithTag_iff hl]; exact hno), ok_bind]
    simp only [List.length_nil, List.length_cons, pure_eq_ok] at hlen ⊢
    congr 4; omega
  · rw [if_pos, if_neg (by omega), ok_bind]
    · rw [show file.length - pos - 128 = (0xFF :: rest).length by simp only [List.length_cons]; omega]
      rfl
    · rw [endsWithTag_iff hl]
      refine ⟨pre ++ (0xFF :: rest), post, by rw [hf, ← hpost]; simp, ?_⟩
      have := congrArg List.length hpost
      simp at this; omega

def frameBlock (frames : Bytes) (pos : Nat) : FlacBlock := ⟨.num 0xFF, frames.length, [], pos⟩

theorem frame_contents {pre frames back file : Bytes} {pos : Nat} (hp : pre.length = pos)
    (hf : file = pre ++ (frames ++ back)) : flacContents file (frameBlock frames pos) = frames := by
  unfold flacContents frameBlock
  rw [hf]
  exact readAt_append _ _ _ (by simp [hp]) rfl

theorem flacLoop_frames {σ : Type} {pre rest back file : Bytes} {pos : Nat}
    {body : σ → FlacBlock → Res (σ × FlacNext)} (hp : pre.length = pos)
    (hf : file = pre ++ ((0xFF :: rest) ++ back)) (hl : 128 ≤ file.length)
    (hb : (back = [] ∧ ¬ EndsWithTag file) ∨ (back.length = 128 ∧ [0x54, 0x41, 0x47] <+: back))
    {s s' : σ} {n : FlacNext} (hbody : body s (frameBlock (0xFF :: rest) pos) = .ok (s', n)) (fuel : Nat) :
    flacLoop file body (fuel + 1) pos s =
      if n = .stop then .ok s' else flacLoop file body fuel (pos + (0xFF :: rest).length) s' := by
  rw [flacLoop, flacRead_frames hp hf hl hb, ok_bind]
  have hbody' : body s ⟨.num 0xFF, (0xFF :: rest).length, [], pos⟩ = .ok (s', n) := hbody
  simp only [hbody', ok_bind, pure_eq_ok]
  have : n ≠ .stop → flacPos file ⟨.num 0xFF, (0xFF :: rest).length, [], pos⟩ n = pos + (0xFF :: rest).length := by
    have hc := frame_contents hp hf
    intro hn
    cases n
    · show pos + 0 + (flacContents file (frameBlock (0xFF :: rest) pos)).length = _
      rw [hc]; simp
    · simp [flacPos]
    · exact absurd rfl hn
  split
  · rfl
  · rename_i hn; rw [this hn]

theorem flacLoop_end {σ : Type} {file : Bytes} {body : σ → FlacBlock → Res (σ × FlacNext)} {pos : Nat} {s : σ}
    (h : pos = file.length) (fuel : Nat) : flacLoop file body (fuel + 1) pos s = .ok s := by
  rw [flacLoop]
  unfold flacRead
  rw [if_pos h]
  rfl

theorem flacLoop_tag {σ : Type} {file : Bytes} {body : σ → FlacBlock → Res (σ × FlacNext)} {pre back : Bytes}
    {pos : Nat} (hp : pre.length = pos) (hf : file = pre ++ back) (hb : back.length = 128)
    (ht : [0x54, 0x41, 0x47] <+: back) {s s' : σ} {n : FlacNext}
    (hbody : body s ⟨.tag, 128, [], pos⟩ = .ok (s', n)) (hn : n ≠ .stop) (fuel : Nat) :
    flacLoop file body (fuel + 2) pos s = .ok s' := by
  obtain ⟨post, rfl⟩ := ht
  have hlen : file.length = pos + 128 := by rw [hf]; simp [hp] at hb ⊢; omega
  have hread : flacRead file pos = .ok (some ⟨.tag, 128, [], pos⟩) := by
    obtain ⟨x, post', rfl⟩ : ∃ x post', post = x :: post' := by
      cases post with
      | nil => simp at hb
      | cons x p => exact ⟨x, p, rfl⟩
    have hr : readAt file pos 4 = [0x54, 0x41, 0x47, x] := by
      rw [hf, show pre ++ ([0x54, 0x41, 0x47] ++ x :: post') = pre ++ ([0x54, 0x41, 0x47, x] ++ post') by simp]
      exact readAt_append _ _ _ hp rfl
    unfold flacRead
    rw [if_neg (by omega)]
    simp only [hr]
    rw [if_neg (by simp [mFLaC]), if_neg (by simp [mID3]), if_pos (by simp [mTAG])]
  rw [flacLoop, hread, ok_bind]
  simp only [hbody, ok_bind]
  rw [if_neg hn]
  have : flacPos file ⟨.tag, 128, [], pos⟩ n = pos + 128 := by
    cases n
    · simp only [flacPos, flacContents, readAt_length]; simp; omega
    · simp [flacPos]
    · exact absurd rfl hn
  rw [this]
  exact flacLoop_end (by omega) fuel

/-- An invariant of the body is an invariant of the loop. -/
theorem flacLoop_inv {σ : Type} {file : Bytes} {body : σ → FlacBlock → Res (σ × FlacNext)} (P : σ → Prop)
    (h : ∀ s b s' n, P s → body s b = .ok (s', n) → P s') :
    ∀ fuel pos s r, P s → flacLoop file body fuel pos s = .ok r → P r := by
  intro fuel
  induction fuel with
  | zero => intro pos s r _ hr; simp [flacLoop] at hr
  | succ fuel ih =>
    intro pos s r hs hr
    rw [flacLoop, bind_eq_ok] at hr
    obtain ⟨o, _, hr⟩ := hr
    cases o with
    | none => simp at hr; exact hr ▸ hs
    | some b =>
      simp only [bind_eq_ok] at hr
      obtain ⟨⟨s', n⟩, hb, hr⟩ := hr
      dsimp only at hr
      have := h s b s' n hs hb
      split at hr
      · simp at hr; exact hr ▸ this
      · exact ih _ _ _ this hr

end Rescene
