import Verif.Lemmas.Flac
/-
C38: FLAC files, from the file to the SRS and back.
-/
namespace Rescene.Props
open Rescene.Spec

theorem metas_short (l : List FlacMeta) : l.length ≤ (metaBytes l).length := by
  induction l with
  | nil => simp
  | cons m l ih => simp; omega

theorem flacRead_magic {pre post : Bytes} {pos : Nat} (hp : pre.length = pos) :
    flacRead (pre ++ (mFLaC ++ post)) pos = .ok (some (magicBlock pos)) := by
  have hr : readAt (pre ++ (mFLaC ++ post)) pos 4 = mFLaC := readAt_append _ _ _ hp rfl
  unfold flacRead
  rw [if_neg (by simp [hp, mFLaC])]
  simp only [hr, if_true]
  rfl

/-! ### Making the SRS -/

theorem profile_metas (l : List FlacMeta) : ∀ s : FlacProfile,
    l.foldl (fun s m => (⟨crc32 m.bytes s.crc, s.meta_ + m.bytes.length, s.tracks⟩ : FlacProfile)) s =
      ⟨crc32 (metaBytes l) s.crc, s.meta_ + (metaBytes l).length, s.tracks⟩ := by
  induction l with
  | nil => intro s; cases s; simp [crc32]
  | cons m l ih =>
    intro s
    rw [List.foldl_cons, ih]
    simp only [metaBytes_cons, crc32_append, List.length_append]
    congr 1; omega

/-- What is found out about a FLAC file. -/
theorem flac_profile {metas : List FlacMeta} {frames : Bytes} (h : PlainFlac metas frames)
    (hl : 128 ≤ (flacBytes metas frames).length) :
    flacProfile (flacBytes metas frames) = .ok (crc32 (flacBytes metas frames) 0,
      [(1, { number := 1, dataLength := frames.length, sig := frames.take 256 })]) := by
  obtain ⟨hfine, _, ⟨rest, hfr⟩, hno⟩ := h
  have hflen : frames.length = rest.length + 1 := by rw [hfr]; rfl
  have hlen : (flacBytes metas frames).length = 4 + (metaBytes metas).length + frames.length := by
    simp [flacBytes]; omega
  have hms := metas_short metas
  obtain ⟨k, hk⟩ : ∃ k, (flacBytes metas frames).length + 1 = (metas.length + (k + 1 + 1)) + 1 :=
    ⟨(flacBytes metas frames).length - metas.length - 2, by omega⟩
  generalize hfile : flacBytes metas frames = file at *
  have hf0 : file = [] ++ (mFLaC ++ (metaBytes metas ++ frames)) := by rw [← hfile]; rfl
  have hf1 : file = mFLaC ++ (metaBytes metas ++ frames) := by rw [hf0]; rfl
  have hf2 : file = (mFLaC ++ metaBytes metas) ++ ((0xFF :: rest) ++ []) := by rw [hf1, hfr]; simp
  have hend : flacAll file (flacProfileBlock file) ⟨0, 0, []⟩ =
      .ok ⟨crc32 file 0, 4 + (metaBytes metas).length,
        [(1, { number := 1, dataLength := frames.length, sig := frames.take 256 })]⟩ := by
    unfold flacAll
    rw [hk, flacLoop_magic (pre := []) (pos := 0) rfl hf0
      (s' := (⟨crc32 mFLaC 0, 4, []⟩ : FlacProfile)) (n := .skip) rfl (by decide)]
    rw [flacLoop_metas (fun s m => (⟨crc32 m.bytes s.crc, s.meta_ + m.bytes.length, s.tracks⟩ : FlacProfile))
      (fun _ => True) metas mFLaC frames (0 + 4) _ (fun m hm => (hfine m hm).1) rfl hf1 trivial]
    · rw [profile_metas]
      simp only
      rw [flacLoop_frames (pre := mFLaC ++ metaBytes metas) (rest := rest) (back := []) (n := .skip)
        (s' := (⟨crc32 file 0, 4 + (metaBytes metas).length,
          [(1, { number := 1, dataLength := frames.length, sig := frames.take 256 })]⟩ : FlacProfile))
        (by simp [mFLaC]; omega) hf2 hl (Or.inl ⟨rfl, hno⟩)]
      · rw [if_neg (by decide)]
        exact flacLoop_end (by rw [← hfr]; omega) k
      · have hc := frame_contents (pos := 0 + 4 + (metaBytes metas).length) (by simp [mFLaC]; omega) hf2
        unfold flacProfileBlock
        rw [if_neg (by simp [frameBlock])]
        rw [hc, if_pos (by simp [FlacBlock.isFrame, frameBlock])]
        rw [← hfr]
        have hcrc : crc32 frames (crc32 [] (crc32 (metaBytes metas) (crc32 mFLaC 0))) = crc32 file 0 := by
          rw [hf1, crc32_append, crc32_append, show ∀ c, crc32 [] c = c by intro c; simp [crc32]]
        simp only [frameBlock, Tracks.put, List.length_nil, Nat.add_zero, hfr, show ∀ c, crc32 [] c = c from fun c => by simp [crc32]] at hcrc ⊢
        rw [hcrc]
    · intro m hm s b _ hty hhdr hsz hcont
      refine ⟨trivial, .skip, by decide, ?_⟩
      have h4 := (hfine m hm).1.2.2.2.1
      unfold flacProfileBlock
      rw [if_neg (by rw [hty]; simp), hhdr, hcont]
      simp only [FlacBlock.isFrame, hty]
      rw [if_neg (by simpa using h4)]
      simp only [FlacMeta.bytes, crc32_append, List.length_append, hsz, Nat.add_assoc]
  unfold flacProfile
  rw [hend, ok_bind]
  simp only [List.map_cons, List.map_nil, List.sum_cons, List.sum_nil]
  rw [if_neg (by omega)]
  rfl

/-- The SRS: the marker, the custom blocks, and the metadata blocks. -/
theorem flac_create {metas : List FlacMeta} {frames : Bytes} (h : PlainFlac metas frames)
    (hl : 128 ≤ (flacBytes metas frames).length) {app name : Str} {size crc : Nat} {tracks : Tracks}
    {fp : Option (Nat × Bytes)} {bigFile : Bool} {srs : Bytes}
    (hc : flacCreateSrs app name size crc tracks fp bigFile (flacBytes metas frames) = .ok srs) :
    ∃ ins, flacInsert app name size crc tracks fp bigFile = .ok ins ∧ srs = mFLaC ++ (ins ++ metaBytes metas) := by
  obtain ⟨hfine, _, ⟨rest, hfr⟩, hno⟩ := h
  have hflen : frames.length = rest.length + 1 := by rw [hfr]; rfl
  have hlen : (flacBytes metas frames).length = 4 + (metaBytes metas).length + frames.length := by
    simp [flacBytes]; omega
  have hms := metas_short metas
  obtain ⟨k, hk⟩ : ∃ k, (flacBytes metas frames).length + 1 = (metas.length + (k + 1 + 1)) + 1 :=
    ⟨(flacBytes metas frames).length - metas.length - 2, by omega⟩
  generalize hfile : flacBytes metas frames = file at *
  have hf0 : file = [] ++ (mFLaC ++ (metaBytes metas ++ frames)) := by rw [← hfile]; rfl
  have hf1 : file = mFLaC ++ (metaBytes metas ++ frames) := by rw [hf0]; rfl
  have hf2 : file = (mFLaC ++ metaBytes metas) ++ ((0xFF :: rest) ++ []) := by rw [hf1, hfr]; simp
  unfold flacCreateSrs at hc
  cases hins : flacInsert app name size crc tracks fp bigFile with
  | error e =>
    rw [hins] at hc
    unfold flacAll at hc
    have hread : flacRead file 0 = .ok (some (magicBlock 0)) := by rw [hf0]; exact flacRead_magic rfl
    rw [hk, flacLoop, hread, ok_bind] at hc
    simp [flacCreateBlock, magicBlock] at hc
  | ok ins =>
    refine ⟨ins, rfl, ?_⟩
    rw [hins] at hc
    have hend : flacAll file (flacCreateBlock file (.ok ins)) [] = .ok (mFLaC ++ (ins ++ metaBytes metas)) := by
      unfold flacAll
      rw [hk, flacLoop_magic (pre := []) (pos := 0) rfl hf0 (s' := mFLaC ++ ins) (n := .read) (by
        simp [flacCreateBlock, magicBlock, FlacBlock.isFrame, flacContents, readAt]) (by decide)]
      rw [flacLoop_metas (fun s m => s ++ m.bytes)
        (fun _ => True) metas mFLaC frames (0 + 4) _ (fun m hm => (hfine m hm).1) rfl hf1 trivial]
      · rw [flacLoop_frames (pre := mFLaC ++ metaBytes metas) (rest := rest) (back := []) (n := .skip)
          (s' := mFLaC ++ ins ++ metaBytes metas) (by simp [mFLaC]; omega) hf2 hl (Or.inl ⟨rfl, hno⟩)]
        · rw [if_neg (by decide), flacLoop_end (by rw [← hfr]; omega) k, List.append_assoc]
        · have : metas.foldl (fun s m => s ++ m.bytes) (mFLaC ++ ins) = mFLaC ++ ins ++ metaBytes metas := by
            have gen : ∀ (l : List FlacMeta) (x : Bytes), l.foldl (fun s m => s ++ m.bytes) x = x ++ metaBytes l := by
              intro l
              induction l with
              | nil => intro x; simp
              | cons m l ih => intro x; rw [List.foldl_cons, ih]; simp
            exact gen _ _
          rw [this]
          simp [flacCreateBlock, frameBlock, FlacBlock.isFrame]
      · intro m hm s b _ hty hhdr hsz hcont
        refine ⟨trivial, .read, by decide, ?_⟩
        have h4 := (hfine m hm).1.2.2.2.1
        simp [flacCreateBlock, hty, hhdr, hcont, FlacBlock.isFrame, h4, FlacMeta.bytes]
    rw [hend] at hc
    simpa using hc.symm

theorem trackSerialize_length {t : TrackData} {d : Bytes} (hd : trackSerialize t = .ok d) : d.length < 2 ^ 24 := by
  unfold trackSerialize at hd
  simp only [bind_eq_ok, pack_eq_ok, pure_eq_ok, Except.ok.injEq] at hd
  obtain ⟨_, ⟨_, rfl⟩, b1, h1, b2, h2, b3, h3, _, ⟨h4, rfl⟩, rfl⟩ := hd
  have e1 : b1.length ≤ 4 := by
    split at h1 <;> rw [pack_eq_ok] at h1 <;> rw [h1.2] <;> simp
  have e2 : b2.length ≤ 8 := by
    split at h2 <;> rw [pack_eq_ok] at h2 <;> rw [h2.2] <;> simp
  have e3 : b3.length ≤ 8 := by
    unfold packInt at h3
    split at h3
    · simp at h3
    · rw [pack_eq_ok] at h3; rw [h3.2]; simp
  simp; omega

/-- The custom blocks are blocks with types 115, 116 and 117. -/
theorem flac_insert {app name : Str} {size crc : Nat} {t : TrackData}
    {fp : Option (Nat × Bytes)} {bigFile : Bool} {ins : Bytes} (hnum : t.number = 1) (hfl : t.flags = 0)
    (hfp : ∀ d p, fp = some (d, p) → 8 + p.length < 2 ^ 24)
    (h : flacInsert app name size crc [(1, t)] fp bigFile = .ok ins) :
    ∃ f d : Bytes, ∃ us : List FlacMeta, ins = metaBytes (⟨0x73, f⟩ :: ⟨0x74, d⟩ :: us) ∧
      f.length < 2 ^ 24 ∧ d.length < 2 ^ 24 ∧
      fileParse f = .ok ⟨3, app, basename name, size, crc % 2 ^ 32⟩ ∧
      trackParse d = .ok (readTrack bigFile t) ∧
      (us = [] ∨ ∃ u, us = [⟨0x75, u⟩] ∧ u.length < 2 ^ 24 ∧ ∃ p, readFingerprint u = .ok p) := by
  unfold flacInsert flacTrack flacSrsBlock at h
  simp only [bind_eq_ok, List.mapM_cons, List.mapM_nil, pure_eq_ok, Except.ok.injEq, packBe] at h
  obtain ⟨f, hf, fb, ⟨n, hn, rfl⟩, tb, ⟨_, ⟨d, hd, _, ⟨n', hn', rfl⟩, rfl⟩, _, rfl, rfl⟩, rfl⟩ := h
  split at hn
  case isFalse => simp at hn
  split at hn'
  case isFalse => simp at hn'
  rename_i hlf hld
  simp only [Except.ok.injEq] at hn hn'
  subst hn hn'
  have hflen : f.length < 2 ^ 24 := by
    unfold fileSerialize at hf
    simp only [bind_eq_ok, pack_eq_ok, pure_eq_ok, Except.ok.injEq] at hf
    obtain ⟨a, _, n, _, _, ⟨_, rfl⟩, _, ⟨h1, rfl⟩, _, ⟨h2, rfl⟩, _, ⟨_, rfl⟩, _, ⟨_, rfl⟩, rfl⟩ := hf
    simp; omega
  have hdlen := trackSerialize_length hd
  have hcut : ∀ x : Nat, (be 4 x).drop 1 = be 3 x := by
    intro x
    simp [be, le]
  have hread : trackParse d = .ok (readTrack bigFile t) := by
    have e : (if bigFile = true then { t with flags := t.flags ||| 4 } else t) =
        { t with flags := if bigFile then t.flags ||| 4 else t.flags } := by cases bigFile <;> rfl
    rw [e] at hd
    have := Props.track_data_small_number
      { t with flags := if bigFile then t.flags ||| 4 else t.flags } (by simp [hnum])
      (by rw [hfl]; cases bigFile <;> simp) d [] hd
    rw [List.append_nil] at this
    exact this
  have hfread : fileParse f = .ok ⟨3, app, basename name, size, crc % 2 ^ 32⟩ := by
    have := Props.file_data_round_trip hf []
    rwa [List.append_nil] at this
  have hu : ∃ us : List FlacMeta, flacFingerprint fp = metaBytes us ∧
      (us = [] ∨ ∃ u, us = [⟨0x75, u⟩] ∧ u.length < 2 ^ 24 ∧ ∃ p, readFingerprint u = .ok p) := by
    unfold flacFingerprint
    cases fp with
    | none => exact ⟨[], rfl, Or.inl rfl⟩
    | some dp =>
      obtain ⟨du, pr⟩ := dp
      have hpl := hfp du pr rfl
      simp only
      split
      · rename_i x b hb
        simp only [bind_eq_ok, pack_eq_ok, packBe, pure_eq_ok, Except.ok.injEq] at hb
        obtain ⟨n, hn, _, ⟨hd1, rfl⟩, _, ⟨hd2, rfl⟩, rfl⟩ := hb
        rw [if_pos (by omega)] at hn
        simp only [Except.ok.injEq] at hn
        subst hn
        refine ⟨[⟨0x75, le 4 du ++ (le 4 pr.length ++ pr)⟩], ?_, Or.inr ⟨_, rfl, ?_, (du, pr), ?_⟩⟩
        · simp only [metaBytes_cons, metaBytes_nil, List.append_nil, FlacMeta.bytes, FlacMeta.header, hcut]
          rw [show (le 4 du ++ (le 4 pr.length ++ pr)).length = 4 + 4 + pr.length by simp; omega]
          rfl
        · simp; omega
        · unfold readFingerprint
          have u1 := unpackAt_append (k := 4) (n := du) (off := 0) [] (le 4 pr.length ++ pr) rfl (by omega)
          have u2 := unpackAt_append (k := 4) (n := pr.length) (off := 4) (le 4 du) pr (by simp) (by omega)
          rw [List.nil_append] at u1
          rw [u1, ok_bind, u2, ok_bind]
          have : slice (le 4 du ++ (le 4 pr.length ++ pr)) 8 (8 + pr.length) = pr := by
            have := Props.slice_mid (pre := le 4 du ++ le 4 pr.length) (mid := pr) (post := [])
              (a := 8) (b := 8 + pr.length) (by simp) rfl
            simpa using this
          rw [this]; rfl
      · exact ⟨[], rfl, Or.inl rfl⟩
  obtain ⟨us, hus, hus'⟩ := hu
  refine ⟨f, d, us, ?_, hflen, hdlen, hfread, hread, hus'⟩
  rw [hus]
  simp only [metaBytes_cons, FlacMeta.bytes, FlacMeta.header, List.flatten_cons, List.flatten_nil, List.append_nil]
  rw [hcut, hcut]
  simp

/-! ### Reading the SRS -/

theorem load_rest {file : Bytes} (l : List FlacMeta) : ∀ (pre : Bytes) (pos fuel : Nat) (s : FlacLoad),
    (∀ m ∈ l, m.Fine ∧ m.ty ≠ 0x73 ∧ m.ty ≠ 0x74 ∧ m.ty ≠ 0x75) → pre.length = pos →
    file = pre ++ metaBytes l → l.length < fuel →
    flacLoop file (flacLoadBlock file) fuel pos s = .ok s := by
  induction l with
  | nil =>
    intro pre pos fuel s _ hp hf hfuel
    obtain ⟨k, rfl⟩ : ∃ k, fuel = k + 1 := ⟨fuel - 1, by simp at hfuel; omega⟩
    exact flacLoop_end (by rw [hf]; simp [hp]) k
  | cons m l ih =>
    intro pre pos fuel s hm hp hf hfuel
    obtain ⟨k, rfl⟩ : ∃ k, fuel = k + 1 := ⟨fuel - 1, by simp at hfuel; omega⟩
    obtain ⟨hfine, h1, h2, h3⟩ := hm m (by simp)
    have hf' : file = pre ++ (m.bytes ++ metaBytes l) := by rw [hf]; simp
    have hb : flacLoadBlock file s (metaBlock m pos) =
        if (m.ty = 0 ∨ (metaBlock m pos).isLast = true) then .ok (s, .stop) else .ok (s, .skip) := by
      have e : (metaBlock m pos).ty = .num m.ty := rfl
      unfold flacLoadBlock
      rw [e, if_neg (by simpa using h1), if_neg (by simpa using h2), if_neg (by simpa using h3), ok_bind]
      simp only [pure_eq_ok]
      by_cases hs : m.ty = 0 ∨ (metaBlock m pos).isLast = true
      · simp [hs]
      · simp [hs]
    by_cases hstop : m.ty = 0 ∨ (metaBlock m pos).isLast = true
    · rw [if_pos hstop] at hb
      rw [flacLoop, hf', flacRead_meta hfine hp, ← hf', ok_bind]
      simp [hb]
    · rw [if_neg hstop] at hb
      rw [flacLoop_meta hfine hp hf' hb (by decide)]
      exact ih (pre ++ m.bytes) _ k s (fun x hx => hm x (by simp [hx])) (by simp [hp]) (by rw [hf']; simp)
        (by simp at hfuel; omega)

theorem loadBlock_desc {file f : Bytes} {pos : Nat} {s : FlacLoad} {fd : FileData}
    (hc : flacContents file (metaBlock ⟨0x73, f⟩ pos) = f) (h : fileParse f = .ok fd) :
    flacLoadBlock file s (metaBlock ⟨0x73, f⟩ pos) = .ok ({ s with file := some fd }, .read) := by
  have e : (metaBlock ⟨0x73, f⟩ pos).ty = .num 0x73 := rfl
  have l : (metaBlock ⟨0x73, f⟩ pos).isLast = false := by
    show ((0x73 : UInt8) &&& 0x80 != 0) = false; decide
  unfold flacLoadBlock
  rw [hc, e, l]
  simp [h]

theorem loadBlock_track {file d : Bytes} {pos : Nat} {s : FlacLoad} {t : TrackData}
    (hc : flacContents file (metaBlock ⟨0x74, d⟩ pos) = d) (h : trackParse d = .ok t) :
    flacLoadBlock file s (metaBlock ⟨0x74, d⟩ pos) = .ok ({ s with tracks := s.tracks.put t.number t }, .read) := by
  have e : (metaBlock ⟨0x74, d⟩ pos).ty = .num 0x74 := rfl
  have l : (metaBlock ⟨0x74, d⟩ pos).isLast = false := by
    show ((0x74 : UInt8) &&& 0x80 != 0) = false; decide
  unfold flacLoadBlock
  rw [hc, e, l]
  simp [h]

theorem loadBlock_print {file u : Bytes} {pos : Nat} {s : FlacLoad} {t : TrackData} {p : Nat × Bytes}
    (hc : flacContents file (metaBlock ⟨0x75, u⟩ pos) = u) (h : readFingerprint u = .ok p)
    (ht : s.tracks.get 1 = .ok t) :
    flacLoadBlock file s (metaBlock ⟨0x75, u⟩ pos) = .ok ({ s with print := some p }, .read) := by
  have e : (metaBlock ⟨0x75, u⟩ pos).ty = .num 0x75 := rfl
  have l : (metaBlock ⟨0x75, u⟩ pos).isLast = false := by
    show ((0x75 : UInt8) &&& 0x80 != 0) = false; decide
  unfold flacLoadBlock
  rw [hc, e, l]
  simp [h, ht]

theorem flac_load {f d : Bytes} {us metas : List FlacMeta} {fd : FileData} {t : TrackData}
    (hfl : f.length < 2 ^ 24) (hdl : d.length < 2 ^ 24) (hf : fileParse f = .ok fd)
    (hd : trackParse d = .ok t) (hnum : t.number = 1)
    (hu : us = [] ∨ ∃ u, us = [⟨0x75, u⟩] ∧ u.length < 2 ^ 24 ∧ ∃ p, readFingerprint u = .ok p)
    (hm : ∀ m ∈ metas, m.Fine ∧ m.ty ≠ 0x73 ∧ m.ty ≠ 0x74 ∧ m.ty ≠ 0x75) :
    ∃ p, flacLoadSrs (mFLaC ++ (metaBytes (⟨0x73, f⟩ :: ⟨0x74, d⟩ :: us) ++ metaBytes metas)) = .ok (fd, [(1, t)], p) := by
  have hms := metas_short metas
  generalize hfile : mFLaC ++ (metaBytes (⟨0x73, f⟩ :: ⟨0x74, d⟩ :: us) ++ metaBytes metas) = file
  have hlen : file.length = 4 + (4 + f.length) + (4 + d.length) + (metaBytes us).length + (metaBytes metas).length := by
    rw [← hfile]; simp [mFLaC]; omega
  obtain ⟨k, hk⟩ : ∃ k, file.length + 1 = k + 1 + 1 + 1 + 1 := ⟨file.length - 3, by omega⟩
  have hf0 : file = [] ++ (mFLaC ++ (metaBytes (⟨0x73, f⟩ :: ⟨0x74, d⟩ :: us) ++ metaBytes metas)) := by rw [← hfile]; rfl
  have hf1 : file = mFLaC ++ ((⟨0x73, f⟩ : FlacMeta).bytes ++ ((⟨0x74, d⟩ : FlacMeta).bytes ++ (metaBytes us ++ metaBytes metas))) := by
    rw [hf0]; simp
  have hf2 : file = (mFLaC ++ (⟨0x73, f⟩ : FlacMeta).bytes) ++ ((⟨0x74, d⟩ : FlacMeta).bytes ++ (metaBytes us ++ metaBytes metas)) := by
    rw [hf1]; simp
  have hall : ∃ p, flacAll file (flacLoadBlock file) {} = .ok ⟨some fd, [(1, t)], p⟩ := by
    unfold flacAll
    rw [hk, flacLoop_magic (pre := []) (pos := 0) rfl hf0 (s' := {}) (n := .skip) rfl (by decide)]
    rw [flacLoop_meta (m := ⟨0x73, f⟩) ⟨by simp, by simp, by simp, by simp, hfl⟩ (pre := mFLaC) (pos := 0 + 4) rfl hf1
      (loadBlock_desc (file := file) (by rw [hf1]; exact metaBlock_contents _ rfl) hf) (by decide)]
    rw [flacLoop_meta (m := ⟨0x74, d⟩) ⟨by simp, by simp, by simp, by simp, hdl⟩ (pos := 0 + 4 + (⟨0x73, f⟩ : FlacMeta).bytes.length) (by simp [mFLaC]; omega) hf2
      (loadBlock_track (file := file) (by rw [hf2]; exact metaBlock_contents _ (by simp [mFLaC]; omega)) hd) (by decide)]
    rw [hnum]
    rcases hu with rfl | ⟨u, rfl, hul, p, hp⟩
    · refine ⟨none, ?_⟩
      simp only [metaBytes_nil, List.nil_append] at hf2
      exact load_rest metas (mFLaC ++ ((⟨0x73, f⟩ : FlacMeta).bytes ++ (⟨0x74, d⟩ : FlacMeta).bytes)) _ _ _ hm
        (by simp [mFLaC]; omega) (by rw [hf2]; simp) (by simp at hlen; omega)
    · refine ⟨some p, ?_⟩
      have hf3 : file = (mFLaC ++ ((⟨0x73, f⟩ : FlacMeta).bytes ++ (⟨0x74, d⟩ : FlacMeta).bytes)) ++
          ((⟨0x75, u⟩ : FlacMeta).bytes ++ metaBytes metas) := by rw [hf2]; simp
      obtain ⟨j, rfl⟩ : ∃ j, k = j + 1 := ⟨k - 1, by simp at hlen; omega⟩
      rw [flacLoop_meta (m := ⟨0x75, u⟩) ⟨by simp, by simp, by simp, by simp, hul⟩ (by simp [mFLaC]; omega) hf3
        (loadBlock_print (file := file) (t := t) (by rw [hf3]; exact metaBlock_contents _ (by simp [mFLaC]; omega)) hp rfl) (by decide)]
      exact load_rest metas (mFLaC ++ ((⟨0x73, f⟩ : FlacMeta).bytes ++ ((⟨0x74, d⟩ : FlacMeta).bytes ++
          (⟨0x75, u⟩ : FlacMeta).bytes))) _ _ _ hm
        (by simp [mFLaC]; omega) (by rw [hf3]; simp) (by simp at hlen; omega)
  obtain ⟨p, hall⟩ := hall
  refine ⟨p, ?_⟩
  unfold flacLoadSrs
  rw [hall, ok_bind]
  rfl

/-! ### The main file -/

/-- A loop that skips everything before the frames gets to the frames. -/
theorem to_frames {σ : Type} {front : Bytes} {metas : List FlacMeta} {frames back : Bytes}
    (hfront : front = [] ∨ IsId3v2 front) (hm : ∀ m ∈ metas, m.Fine)
    {file : Bytes} (hf : file = front ++ (flacBytes metas frames ++ back))
    {body : σ → FlacBlock → Res (σ × FlacNext)} {s : σ}
    (hb : ∀ b : FlacBlock, b.isFrame = false → body s b = .ok (s, .skip)) (hfr : frames ≠ []) :
    ∃ k, flacAll file body s = flacLoop file body (k + 3) (front.length + 4 + (metaBytes metas).length) s := by
  have hms := metas_short metas
  have hfl : 0 < frames.length := by cases frames with
    | nil => exact absurd rfl hfr
    | cons _ _ => simp
  have hlen : file.length = front.length + (4 + (metaBytes metas).length + frames.length) + back.length := by
    rw [hf]; simp [flacBytes]; omega
  have hf1 : file = front ++ (mFLaC ++ (metaBytes metas ++ (frames ++ back))) := by rw [hf]; simp [flacBytes, mFLaC]
  have hf2 : file = (front ++ mFLaC) ++ (metaBytes metas ++ (frames ++ back)) := by rw [hf1]; simp
  have hmet : ∀ fuel, flacLoop file body (metas.length + fuel) (front.length + 4) s =
      flacLoop file body fuel (front.length + 4 + (metaBytes metas).length) s := by
    intro fuel
    rw [flacLoop_metas (fun s _ => s) (fun x => x = s) metas (front ++ mFLaC) (frames ++ back) _ s hm
      (by simp [mFLaC]) hf2 rfl]
    · congr 1
      clear hm hf hms hlen hf1 hf2
      induction metas with
      | nil => rfl
      | cons a l ih => rw [List.foldl_cons]; exact ih
    · intro m hm' s' b hs hty _ _ _
      subst hs
      refine ⟨rfl, .skip, by decide, hb b ?_⟩
      simp only [FlacBlock.isFrame, hty]
      simpa using (hm m hm').2.2.2.1
  have hmag : ∀ fuel, flacLoop file body (fuel + 1) front.length s = flacLoop file body fuel (front.length + 4) s :=
    fun fuel => flacLoop_magic rfl hf1 (hb _ rfl) (by decide) fuel
  unfold flacAll
  rcases hfront with rfl | hid
  · obtain ⟨k, hk⟩ : ∃ k, file.length + 1 = (metas.length + (k + 3)) + 1 :=
      ⟨file.length - metas.length - 3, by simp at hlen; omega⟩
    refine ⟨k, ?_⟩
    have := hmag (metas.length + (k + 3))
    rw [hmet] at this
    rw [hk]; exact this
  · have h10 : 10 ≤ front.length := (flacRead_id3 hid (pre := []) (post := []) rfl).choose_spec.2.2.1
    obtain ⟨k, hk⟩ : ∃ k, file.length + 1 = (metas.length + (k + 3)) + 1 + 1 :=
      ⟨file.length - metas.length - 4, by omega⟩
    refine ⟨k, ?_⟩
    rw [hk, flacLoop_id3 hid (pre := []) (pos := 0) (file := file) rfl (by rw [hf1]; rfl) (fun b hb' => hb b (by simp [FlacBlock.isFrame, hb'])),
      Nat.zero_add, hmag, hmet]

theorem flac_find {main frames : Bytes} (h : FlacWithFrames main frames) (hl : 128 ≤ main.length)
    {rest : Bytes} (hfr : frames = 0xFF :: rest) {t : TrackData} (hs : t.sig = frames.take 256) :
    ∃ t' : TrackData, flacFind [(1, t)] main = .ok [(1, t')] ∧ t'.sig = t.sig ∧ t'.dataLength = t.dataLength ∧
      0 < t'.matchOffset := by
  obtain ⟨front, metas, back, hmain, hfront, hm, hback⟩ := h
  obtain ⟨k, hk⟩ := to_frames (body := flacFindBlock main) (s := [(1, t)]) hfront hm hmain
    (by intro b hb; simp [flacFindBlock, hb]) (by rw [hfr]; simp)
  have hpre : (front ++ (mFLaC ++ metaBytes metas)).length = front.length + 4 + (metaBytes metas).length := by
    simp [mFLaC]; omega
  have hf2 : main = (front ++ (mFLaC ++ metaBytes metas)) ++ (frames ++ back) := by
    rw [hmain]; simp [flacBytes, mFLaC]
  have hcont := frame_contents hpre hf2
  rw [hfr] at hf2 hcont
  unfold flacFind
  rw [hk, flacLoop_frames hpre hf2 hl hback (n := .stop)
    (s' := [(1, { t with checkBytes := t.sig, matchOffset := (front.length + 4 + (metaBytes metas).length : Nat), matchLength := min t.dataLength frames.length })])]
  · rw [if_pos rfl]
    exact ⟨_, rfl, rfl, rfl, by simp only; omega⟩
  · unfold flacFindBlock
    rw [if_pos (by simp [FlacBlock.isFrame, frameBlock]), hcont]
    rw [show Tracks.get [(1, t)] 1 = .ok t from rfl, ok_bind, if_pos]
    · simp [Tracks.put, frameBlock, hfr]
    · rw [hs, hfr]
      simp only [frameBlock, List.length_take]
      rw [show min (min 256 (0xFF :: rest : Bytes).length) (0xFF :: rest : Bytes).length = min 256 (0xFF :: rest : Bytes).length by omega]
      rw [List.take_eq_take_iff]; omega

theorem flac_extract {main frames : Bytes} (h : FlacWithFrames main frames) (hl : 128 ≤ main.length)
    {rest : Bytes} (hfr : frames = 0xFF :: rest) {t : TrackData} :
    flacExtract [(1, t)] main = .ok (some frames) := by
  obtain ⟨front, metas, back, hmain, hfront, hm, hback⟩ := h
  obtain ⟨k, hk⟩ := to_frames (body := flacExtractBlock main [(1, t)]) (s := none) hfront hm hmain
    (by intro b hb; simp [flacExtractBlock, hb]) (by rw [hfr]; simp)
  have hpre : (front ++ (mFLaC ++ metaBytes metas)).length = front.length + 4 + (metaBytes metas).length := by
    simp [mFLaC]; omega
  have hf2 : main = (front ++ (mFLaC ++ metaBytes metas)) ++ (frames ++ back) := by
    rw [hmain]; simp [flacBytes, mFLaC]
  have hcont := frame_contents hpre hf2
  have hlen : main.length = front.length + 4 + (metaBytes metas).length + frames.length + back.length := by
    rw [hf2]; simp [mFLaC]; omega
  rw [hfr] at hf2 hcont
  unfold flacExtract
  rw [hk, flacLoop_frames hpre hf2 hl hback (n := .read) (s' := some frames)]
  · rw [if_neg (by decide)]
    rcases hback with ⟨rfl, _⟩ | ⟨hb1, hb2⟩
    · exact flacLoop_end (by rw [← hfr]; simp at hlen; omega) (k + 1)
    · refine flacLoop_tag (pre := (front ++ (mFLaC ++ metaBytes metas)) ++ (0xFF :: rest)) (n := .skip) ?_ ?_ hb1 hb2 ?_ (by decide) k
      · rw [List.length_append, hpre]
      · rw [hf2]; simp
      · simp [flacExtractBlock, FlacBlock.isFrame]
  · unfold flacExtractBlock
    rw [if_pos (by simp [FlacBlock.isFrame, frameBlock]), hcont]
    rw [show Tracks.get [(1, t)] 1 = .ok t from rfl, ok_bind, hfr]
    rfl

/-! ### Rebuilding -/

theorem isLast_iff (ty : UInt8) (n : Nat) (h : Bytes) (p : Nat) :
    (⟨.num ty, n, h, p⟩ : FlacBlock).isLast = true ↔ ty.toNat ≥ 128 := by
  have : ∀ k < 256, (UInt8.ofNat k &&& 0x80 != 0) = true ↔ (UInt8.ofNat k).toNat ≥ 128 := by decide +kernel
  have := this ty.toNat ty.toNat_lt
  rw [UInt8.ofNat_toNat] at this
  exact this

theorem flac_rebuild {f d : Bytes} {us metas : List FlacMeta} {track : Bytes}
    (hfl : f.length < 2 ^ 24) (hdl : d.length < 2 ^ 24)
    (hu : us = [] ∨ ∃ u, us = [⟨0x75, u⟩] ∧ u.length < 2 ^ 24)
    (hm : ∀ m ∈ metas, m.Fine ∧ m.ty ≠ 0x73 ∧ m.ty ≠ 0x74 ∧ m.ty ≠ 0x75)
    (hlast : ∃ l m, metas = l ++ [m] ∧ m.ty.toNat ≥ 128 ∧ ∀ x ∈ l, x.ty.toNat < 128) :
    flacRebuild (mFLaC ++ (metaBytes (⟨0x73, f⟩ :: ⟨0x74, d⟩ :: us) ++ metaBytes metas)) track =
      .ok (flacBytes metas track, crc32 (flacBytes metas track) 0) := by
  obtain ⟨l, m, rfl, hml, hll⟩ := hlast
  have hms := metas_short (l ++ [m])
  generalize hfile : mFLaC ++ (metaBytes (⟨0x73, f⟩ :: ⟨0x74, d⟩ :: us) ++ metaBytes (l ++ [m])) = file
  have hus := metas_short us
  have hlen : file.length = 4 + (4 + f.length) + (4 + d.length) + (metaBytes us).length + (metaBytes (l ++ [m])).length := by
    rw [← hfile]; simp [mFLaC]; omega
  obtain ⟨k, hk⟩ : ∃ k, file.length + 1 =
      ((⟨0x73, f⟩ :: ⟨0x74, d⟩ :: us : List FlacMeta).length + (l.length + (k + 1 + 1))) + 1 :=
    ⟨file.length - 2 - us.length - l.length - 2, by
      simp only [List.length_cons, List.length_append, List.length_nil] at *; omega⟩
  have hf0 : file = [] ++ (mFLaC ++ (metaBytes (⟨0x73, f⟩ :: ⟨0x74, d⟩ :: us) ++ metaBytes (l ++ [m]))) := by rw [← hfile]; rfl
  have hf1 : file = mFLaC ++ (metaBytes (⟨0x73, f⟩ :: ⟨0x74, d⟩ :: us) ++ metaBytes (l ++ [m])) := by rw [hf0]; rfl
  have hf2 : file = (mFLaC ++ metaBytes (⟨0x73, f⟩ :: ⟨0x74, d⟩ :: us)) ++ (metaBytes l ++ m.bytes) := by
    rw [hf1]; simp
  have hf3 : file = (mFLaC ++ (metaBytes (⟨0x73, f⟩ :: ⟨0x74, d⟩ :: us) ++ metaBytes l)) ++ (m.bytes ++ []) := by
    rw [hf1]; simp
  have hall : flacAll file (flacRebuildBlock file track) ⟨[], 0, 0⟩ =
      .ok ⟨flacBytes (l ++ [m]) track, crc32 (flacBytes (l ++ [m]) track) 0, 2 + us.length⟩ := by
    unfold flacAll
    rw [hk, flacLoop_magic (pre := []) (pos := 0) rfl hf0 (s' := ⟨mFLaC, crc32 mFLaC 0, 0⟩) (n := .skip) rfl (by decide)]
    -- the custom blocks
    have hcust : flacLoop file (flacRebuildBlock file track)
        ((⟨0x73, f⟩ :: ⟨0x74, d⟩ :: us : List FlacMeta).length + (l.length + (k + 1 + 1))) (0 + 4) ⟨mFLaC, crc32 mFLaC 0, 0⟩ =
        flacLoop file (flacRebuildBlock file track) (l.length + (k + 1 + 1))
          (0 + 4 + (metaBytes (⟨0x73, f⟩ :: ⟨0x74, d⟩ :: us)).length) ⟨mFLaC, crc32 mFLaC 0, 2 + us.length⟩ := by
      have hskip : ∀ (m : FlacMeta) (pre post : Bytes) (pos c fuel : Nat), m.Fine → pre.length = pos →
          file = pre ++ (m.bytes ++ post) → (m.ty = 0x73 ∨ m.ty = 0x74 ∨ m.ty = 0x75) → c ≤ 3 →
          flacLoop file (flacRebuildBlock file track) (fuel + 1) pos ⟨mFLaC, crc32 mFLaC 0, c⟩ =
          flacLoop file (flacRebuildBlock file track) fuel (pos + m.bytes.length) ⟨mFLaC, crc32 mFLaC 0, c + 1⟩ := by
        intro m pre post pos c fuel hmf hp hfm hty hc
        refine flacLoop_meta hmf hp hfm (n := .skip) ?_ (by decide) fuel
        unfold flacRebuildBlock
        rw [if_neg (by simp [metaBlock])]
        have : flacIsSrs (metaBlock m pos).ty = .ok true := by
          simp only [metaBlock, flacIsSrs]
          rcases hty with h | h | h <;> rw [h] <;> rfl
        rw [this, ok_bind, if_pos ⟨rfl, hc⟩]
        rfl
      have hfs : (⟨0x73, f⟩ : FlacMeta).Fine := ⟨by simp, by simp, by simp, by simp, hfl⟩
      have hft : (⟨0x74, d⟩ : FlacMeta).Fine := ⟨by simp, by simp, by simp, by simp, hdl⟩
      have step1 := fun fuel => hskip ⟨0x73, f⟩ mFLaC ((⟨0x74, d⟩ : FlacMeta).bytes ++ (metaBytes us ++ metaBytes (l ++ [m])))
        (0 + 4) 0 fuel hfs rfl (by rw [hf1]; simp) (Or.inl rfl) (by omega)
      have step2 := fun fuel => hskip ⟨0x74, d⟩ (mFLaC ++ (⟨0x73, f⟩ : FlacMeta).bytes) (metaBytes us ++ metaBytes (l ++ [m]))
        (0 + 4 + (⟨0x73, f⟩ : FlacMeta).bytes.length) 1 fuel hft (by simp [mFLaC]; omega) (by rw [hf1]; simp) (Or.inr (Or.inl rfl)) (by omega)
      rcases hu with rfl | ⟨u, rfl, hul⟩
      · rw [show (⟨0x73, f⟩ :: ⟨0x74, d⟩ :: [] : List FlacMeta).length + (l.length + (k + 1 + 1)) =
          (l.length + (k + 1 + 1)) + 1 + 1 by simp; omega, step1, step2]
        simp [Nat.add_assoc]
      · have hfu : (⟨0x75, u⟩ : FlacMeta).Fine := ⟨by simp, by simp, by simp, by simp, hul⟩
        have step3 := fun fuel => hskip ⟨0x75, u⟩ (mFLaC ++ ((⟨0x73, f⟩ : FlacMeta).bytes ++ (⟨0x74, d⟩ : FlacMeta).bytes))
          (metaBytes (l ++ [m]))
          (0 + 4 + (⟨0x73, f⟩ : FlacMeta).bytes.length + (⟨0x74, d⟩ : FlacMeta).bytes.length) 2 fuel hfu
          (by simp [mFLaC]; omega) (by rw [hf1]; simp) (Or.inr (Or.inr rfl)) (by omega)
        rw [show (⟨0x73, f⟩ :: ⟨0x74, d⟩ :: [⟨0x75, u⟩] : List FlacMeta).length + (l.length + (k + 1 + 1)) =
          (l.length + (k + 1 + 1)) + 1 + 1 + 1 by simp; omega, step1, step2, step3]
        simp [Nat.add_assoc]
    rw [hcust]
    -- the blocks before the last
    rw [flacLoop_metas (fun (s : FlacOut) m => (⟨s.out ++ m.bytes, crc32 m.bytes s.crc, s.srs⟩ : FlacOut))
      (fun _ => True) l (mFLaC ++ metaBytes (⟨0x73, f⟩ :: ⟨0x74, d⟩ :: us)) m.bytes _ _
      (fun x hx => (hm x (by simp [hx])).1) (by simp [mFLaC]; omega) hf2 trivial]
    · have hfold : ∀ (l : List FlacMeta) (s : FlacOut),
          l.foldl (fun (s : FlacOut) m => (⟨s.out ++ m.bytes, crc32 m.bytes s.crc, s.srs⟩ : FlacOut)) s =
          ⟨s.out ++ metaBytes l, crc32 (metaBytes l) s.crc, s.srs⟩ := by
        intro l
        induction l with
        | nil => intro s; cases s; simp [crc32]
        | cons a l ih => intro s; rw [List.foldl_cons, ih]; simp [crc32_append]
      rw [hfold]
      simp only
      have hpos : (mFLaC ++ (metaBytes (⟨0x73, f⟩ :: ⟨0x74, d⟩ :: us) ++ metaBytes l)).length =
          0 + 4 + (metaBytes (⟨0x73, f⟩ :: ⟨0x74, d⟩ :: us)).length + (metaBytes l).length := by
        simp [mFLaC]; omega
      obtain ⟨hmf, hm1, hm2, hm3⟩ := hm m (by simp)
      rw [flacLoop_meta hmf hpos hf3 (n := .read)
        (s' := ⟨flacBytes (l ++ [m]) track, crc32 (flacBytes (l ++ [m]) track) 0, 2 + us.length⟩) ?_ (by decide)]
      · exact flacLoop_end (by simp at hlen ⊢; omega) k
      · unfold flacRebuildBlock
        rw [if_neg (by simp [metaBlock])]
        have : flacIsSrs (metaBlock m (0 + 4 + (metaBytes (⟨0x73, f⟩ :: ⟨0x74, d⟩ :: us)).length + (metaBytes l).length)).ty = .ok false := by
          simp [metaBlock, flacIsSrs, hm1, hm2, hm3]
        rw [this, ok_bind, if_neg (by simp)]
        have hcont := metaBlock_contents m (post := []) hpos
        rw [← hf3] at hcont
        rw [hcont]
        simp only
        rw [if_pos (by exact (isLast_iff ..).mpr hml)]
        have e : mFLaC ++ metaBytes l ++ ((metaBlock m (0 + 4 + (metaBytes (⟨0x73, f⟩ :: ⟨0x74, d⟩ :: us)).length + (metaBytes l).length)).hdr ++ m.data) ++ track =
            flacBytes (l ++ [m]) track := by
          simp [flacBytes, mFLaC, metaBlock, FlacMeta.bytes]
        rw [e, ← e]
        simp [crc32_append]
    · intro x hx s b _ hty hhdr hsz hcont
      obtain ⟨hxf, hx1, hx2, hx3⟩ := hm x (by simp [hx])
      refine ⟨trivial, .read, by decide, ?_⟩
      unfold flacRebuildBlock
      rw [if_neg (by simp [hty]), hty]
      have : flacIsSrs (.num x.ty) = .ok false := by simp [flacIsSrs, hx1, hx2, hx3]
      rw [this, ok_bind, if_neg (by simp), hcont, hhdr]
      simp only
      have hnl : b.isLast = false := by
        have := isLast_iff x.ty b.size b.hdr b.start
        rw [← hty] at this
        rw [Bool.eq_false_iff]
        intro h
        have := this.mp h
        have := hll x hx
        omega
      rw [hnl]
      simp [FlacMeta.bytes, crc32_append]
  unfold flacRebuild
  rw [hall, ok_bind]
  rfl

theorem find_same {t : TrackData} {main : Bytes} {tr : Tracks} (h : flacFind [(1, t)] main = .ok tr) :
    ∃ t' : TrackData, tr = [(1, t')] ∧ t'.number = t.number ∧ t'.flags = t.flags ∧ t'.sig = t.sig ∧ t'.dataLength = t.dataLength := by
  refine flacLoop_inv (fun tr : Tracks => ∃ t' : TrackData, tr = [(1, t')] ∧ t'.number = t.number ∧ t'.flags = t.flags ∧
    t'.sig = t.sig ∧ t'.dataLength = t.dataLength) ?_ _ _ _ _ ⟨t, rfl, rfl, rfl, rfl, rfl⟩ h
  rintro s b s' n ⟨x, rfl, h1, h2, h3, h4⟩ hb
  unfold flacFindBlock at hb
  split at hb
  · rw [show Tracks.get [(1, x)] 1 = .ok x from rfl, ok_bind] at hb
    split at hb
    · simp only [pure_eq_ok, Except.ok.injEq, Prod.mk.injEq] at hb
      obtain ⟨rfl, rfl⟩ := hb
      exact ⟨_, rfl, h1, h2, h3, h4⟩
    · simp only [pure_eq_ok, Except.ok.injEq, Prod.mk.injEq] at hb
      obtain ⟨rfl, rfl⟩ := hb
      exact ⟨x, rfl, h1, h2, h3, h4⟩
  · simp only [Except.ok.injEq, Prod.mk.injEq] at hb
    obtain ⟨rfl, rfl⟩ := hb
    exact ⟨x, rfl, h1, h2, h3, h4⟩

/-- C38, full statement: a FLAC file is rebuilt from its SRS and any file with the same audio
frames. -/
def flac_rebuilt : Prop :=
  ∀ (app name : Str) (sample frames main srs : Bytes) (fp : Option (Nat × Bytes)) (bigFile : Bool),
    FlacWithFrames sample frames → FlacWithFrames main frames →
    srsFlacCreate app name sample fp bigFile none = .ok srs →
    ∃ r, srsFlacReconstruct srs main = .ok r ∧ r.good = true ∧ r.file = sample

/-- C38: every FLAC file without tags around it is rebuilt byte for byte, and reported as
good, from its SRS and any FLAC file with the same audio frames: the other file may have other
metadata blocks and tags.  With or without fingerprint, `-b` and `-c`.  The fingerprint must
fit in a block. -/
theorem flac_rebuilt_partial {app name : Str} {metas : List FlacMeta} {frames main srs : Bytes}
    {fp : Option (Nat × Bytes)} {bigFile : Bool} {check : Option Bytes}
    (hp : PlainFlac metas frames) (hfp : ∀ d p, fp = some (d, p) → 8 + p.length < 2 ^ 24)
    (h : srsFlacCreate app name (flacBytes metas frames) fp bigFile check = .ok srs)
    (hm : FlacWithFrames main frames) (hl : 128 ≤ main.length) :
    srsFlacReconstruct srs main = .ok ⟨flacBytes metas frames, (flacBytes metas frames).length,
      (crc32 (flacBytes metas frames) 0).toNat, true⟩ := by
  obtain ⟨rest, hfr⟩ := hp.frame
  unfold srsFlacCreate at h
  split at h
  · simp at h
  -- files below 128 bytes cannot be read
  by_cases hlen : 128 ≤ (flacBytes metas frames).length
  case neg =>
    exfalso
    rw [bind_eq_ok] at h
    obtain ⟨r, hprof, _⟩ := h
    unfold flacProfile at hprof
    rw [bind_eq_ok] at hprof
    obtain ⟨s, hs, _⟩ := hprof
    unfold flacAll at hs
    have hms := metas_short metas
    have hfile : flacBytes metas frames = [] ++ (mFLaC ++ (metaBytes metas ++ frames)) := rfl
    have hfile1 : flacBytes metas frames = mFLaC ++ (metaBytes metas ++ frames) := rfl
    have hll : (flacBytes metas frames).length = 4 + (metaBytes metas).length + frames.length := by
      simp [flacBytes]; omega
    have hfl : frames.length = rest.length + 1 := by rw [hfr]; rfl
    obtain ⟨k, hk⟩ : ∃ k, (flacBytes metas frames).length + 1 = (metas.length + (k + 1)) + 1 :=
      ⟨(flacBytes metas frames).length - metas.length - 1, by omega⟩
    rw [hk, flacLoop_magic (pre := []) (pos := 0) rfl hfile
      (s' := (⟨crc32 mFLaC 0, 4, []⟩ : FlacProfile)) (n := .skip) rfl (by decide),
      flacLoop_metas (fun s m => (⟨crc32 m.bytes s.crc, s.meta_ + m.bytes.length, s.tracks⟩ : FlacProfile))
      (fun _ => True) metas mFLaC frames (0 + 4) _ (fun m hm => (hp.fine m hm).1) rfl hfile1 trivial] at hs
    · rw [flacLoop] at hs
      have hr : ∃ t, readAt (flacBytes metas frames) (0 + 4 + (metaBytes metas).length) 4 = 0xFF :: t := by
        have e : flacBytes metas frames = (mFLaC ++ metaBytes metas) ++ (0xFF :: rest) := by rw [hfile1, hfr]; simp
        rw [e, show 0 + 4 + (metaBytes metas).length = (mFLaC ++ metaBytes metas).length by simp [mFLaC]; omega, readAt_append_drop]
        exact ⟨rest.take 3, rfl⟩
      obtain ⟨tl, hr⟩ := hr
      have herr : flacRead (flacBytes metas frames) (0 + 4 + (metaBytes metas).length) = .error .envError := by
        unfold flacRead
        rw [if_neg (by omega)]
        simp only [hr]
        rw [if_neg (by simp [mFLaC])]
        have h1 : mID3.isPrefixOf ((0xFF : UInt8) :: tl) = false := by
          simp only [mID3, List.isPrefixOf_cons_cons]; rw [Bool.and_eq_false_iff]; left; decide
        have h2 : mTAG.isPrefixOf ((0xFF : UInt8) :: tl) = false := by
          simp only [mTAG, List.isPrefixOf_cons_cons]; rw [Bool.and_eq_false_iff]; left; decide
        rw [h1, h2]
        simp only [Bool.false_eq_true, if_false, if_true]
        unfold flacFrame
        rw [if_pos (by omega)]
        rfl
      rw [herr] at hs
      simp at hs
    · intro m hm s b _ hty hhdr hsz hcont
      refine ⟨trivial, .skip, by decide, ?_⟩
      have h4 := (hp.fine m hm).1.2.2.2.1
      unfold flacProfileBlock
      rw [if_neg (by rw [hty]; simp), hhdr, hcont]
      simp only [FlacBlock.isFrame, hty]
      rw [if_neg (by simpa using h4)]
      simp only [FlacMeta.bytes, crc32_append, List.length_append, hsz, Nat.add_assoc]
  rw [flac_profile hp hlen, ok_bind] at h
  simp only [reduceCtorEq, if_false] at h
  -- the track that is stored
  have htr : ∃ t : TrackData, t.number = 1 ∧ t.dataLength = frames.length ∧ t.sig = frames.take 256 ∧ t.flags = 0 ∧
      flacCreateSrs app name (flacBytes metas frames).length (crc32 (flacBytes metas frames) 0).toNat [(1, t)] fp bigFile
        (flacBytes metas frames) = .ok srs := by
    cases check with
    | none =>
      simp only [ok_bind] at h
      exact ⟨_, rfl, rfl, rfl, rfl, h⟩
    | some c =>
      simp only [bind_eq_ok] at h
      obtain ⟨tr', ⟨tr, hfind, htr⟩, h⟩ := h
      obtain ⟨t', rfl, h1, h2, h3, h4⟩ := find_same hfind
      split at htr
      · simp at htr
      have hne : t'.sig ≠ [] := by rw [h3, hfr]; simp
      simp [hne] at htr
      subst htr
      exact ⟨t', h1, h4, h3, h2, h⟩
  obtain ⟨t, hnum, hdl, hsig, hflags, hcreate⟩ := htr
  obtain ⟨ins, hins, rfl⟩ := flac_create hp hlen hcreate
  obtain ⟨f, d, us, rfl, hfl, hdlen, hf, hd, hu⟩ := flac_insert hnum hflags hfp hins
  obtain ⟨p, hload⟩ := flac_load hfl hdlen hf hd (by simp [readTrack, hnum]) hu hp.fine
  unfold srsFlacReconstruct
  rw [hload, ok_bind]
  simp only
  obtain ⟨t', hfind, hs', hdl', hoff⟩ := flac_find hm hl hfr (t := readTrack bigFile t) (by simp [readTrack, hsig])
  rw [hfind, ok_bind]
  have hloc : flacUnlocated [(1, t')] = false := by
    simp [flacUnlocated]; intro _; omega
  rw [hloc]
  simp only [Bool.false_eq_true, if_false]
  rw [flac_extract hm hl hfr, ok_bind]
  have hdl'' : t'.dataLength = frames.length := by rw [hdl']; simp [readTrack, hdl]
  have hreb := flac_rebuild (track := frames) hfl hdlen (us := us) (by
    rcases hu with h | ⟨u, h1, h2, _⟩
    · exact Or.inl h
    · exact Or.inr ⟨u, h1, h2⟩) hp.fine hp.last
  have hcrc : (crc32 (flacBytes metas frames) 0).toNat % 2 ^ 32 = (crc32 (flacBytes metas frames) 0).toNat :=
    Nat.mod_eq_of_lt (crc32 (flacBytes metas frames) 0).isLt
  simp only [List.any_cons, List.any_nil, hdl'', Nat.lt_irrefl, decide_false, Bool.or_false, bne_self_eq_false,
    Bool.and_false, Bool.false_eq_true, if_false]
  rw [hreb, ok_bind]
  simp only [hcrc, pure_eq_ok, beq_self_eq_true]

/-! ### What is reported as good -/

theorem reconstruct_parts {srs main : Bytes} {r : SrsResult} (h : srsFlacReconstruct srs main = .ok r) :
    ∃ f tracks p tr d out crc, flacLoadSrs srs = .ok (f, tracks, p) ∧ flacFind tracks main = .ok tr ∧
      flacExtract tr main = .ok (some d) ∧ flacRebuild srs d = .ok (out, crc) ∧
      r = ⟨out, f.size, f.crc, crc.toNat == f.crc⟩ := by
  unfold srsFlacReconstruct at h
  rw [bind_eq_ok] at h
  obtain ⟨⟨f, tracks, p⟩, hl, h⟩ := h
  simp only [bind_eq_ok] at h
  obtain ⟨tr, htr, h⟩ := h
  split at h
  · simp at h
  simp only [bind_eq_ok] at h
  obtain ⟨data, hdata, h⟩ := h
  cases data with
  | none =>
    simp only at h
    split at h <;> simp at h
  | some d =>
    simp only at h
    split at h
    · simp at h
    split at h
    · simp at h
    simp only [bind_eq_ok] at h
    obtain ⟨⟨out, crc⟩, hreb, h⟩ := h
    simp only [pure_eq_ok, Except.ok.injEq] at h
    exact ⟨f, tracks, p, tr, d, out, crc, hl, htr, hdata, hreb, h.symm⟩

/-- C38: what is reported as good has the CRC recorded in the SRS, for any SRS and main
file. -/
theorem flac_result_sound {srs main : Bytes} {r : SrsResult} (h : srsFlacReconstruct srs main = .ok r) :
    (r.good = true ↔ (crc32 r.file 0).toNat = r.crc) ∧
    ∃ f tracks p, flacLoadSrs srs = .ok (f, tracks, p) ∧ f.crc = r.crc ∧ f.size = r.size := by
  obtain ⟨f, tracks, p, tr, d, out, crc, hl, _, _, hreb, rfl⟩ := reconstruct_parts h
  refine ⟨?_, f, tracks, p, hl, rfl, rfl⟩
  unfold flacRebuild at hreb
  rw [bind_eq_ok] at hreb
  obtain ⟨s, hs, hreb⟩ := hreb
  simp only [pure_eq_ok, Except.ok.injEq, Prod.mk.injEq] at hreb
  obtain ⟨rfl, rfl⟩ := hreb
  have hinv : s.crc = crc32 s.out 0 := by
    refine flacLoop_inv (fun s : FlacOut => s.crc = crc32 s.out 0) ?_ _ _ _ _ (by simp [crc32]) hs
    intro s b s' n hc hb
    unfold flacRebuildBlock at hb
    split at hb
    · simp only [Except.ok.injEq, Prod.mk.injEq] at hb
      obtain ⟨rfl, rfl⟩ := hb
      simp [crc32_append, hc]
    · rw [bind_eq_ok] at hb
      obtain ⟨m, _, hb⟩ := hb
      split at hb
      · simp only [pure_eq_ok, Except.ok.injEq, Prod.mk.injEq] at hb
        obtain ⟨rfl, rfl⟩ := hb
        exact hc
      · split at hb
        · simp only [pure_eq_ok, Except.ok.injEq, Prod.mk.injEq] at hb
          obtain ⟨rfl, rfl⟩ := hb
          simp [crc32_append, hc]
        · simp only [pure_eq_ok, Except.ok.injEq, Prod.mk.injEq] at hb
          obtain ⟨rfl, rfl⟩ := hb
          simp [crc32_append, hc]
  simp [hinv]

/-! ### Reading ends -/

theorem flacRead_progress {file : Bytes} {pos : Nat} {b : FlacBlock} (h : flacRead file pos = .ok (some b))
    (n : FlacNext) : pos < file.length ∧ pos < flacPos file b n := by
  have hpos : pos < file.length := by
    rcases Nat.lt_trichotomy pos file.length with h1 | h1 | h1
    · exact h1
    · simp [flacRead, h1] at h
    · exfalso
      have : readAt file pos 4 = [] := by
        unfold readAt; rw [List.drop_eq_nil_of_le (by omega)]; rfl
      unfold flacRead at h
      rw [if_neg (by omega)] at h
      simp [this, mFLaC, mID3, mTAG] at h
  refine ⟨hpos, ?_⟩
  have hp : ∀ (hdr cont : Nat) (m : FlacNext), hdr = b.hdr.length → b.start = pos →
      0 < hdr + b.size → 0 < hdr + (flacContents file b).length → pos < flacPos file b m := by
    intro hdr cont m hh hs h1 h2
    cases m <;> simp only [flacPos] <;> omega
  unfold flacRead at h
  rw [if_neg (by omega)] at h
  simp only at h
  split at h
  · simp only [Except.ok.injEq, Option.some.injEq] at h
    subst h
    exact hp 4 0 n rfl rfl (by omega) (by omega)
  split at h
  · simp only [bind_eq_ok, pure_eq_ok, Except.ok.injEq, Option.some.injEq] at h
    obtain ⟨sz, hsz, rfl⟩ := h
    have : 0 < (readAt file pos 10).length := by rw [readAt_length]; omega
    exact hp (readAt file pos 10).length 0 n rfl rfl (by omega) (by omega)
  split at h
  · simp only [Except.ok.injEq, Option.some.injEq] at h
    subst h
    refine hp 0 0 n rfl rfl (by simp) ?_
    simp only [flacContents, readAt_length, List.length_nil]; omega
  split at h
  · simp at h
  rename_i hh
  split at h
  · simp only [bind_eq_ok, pure_eq_ok, Except.ok.injEq, Option.some.injEq] at h
    obtain ⟨fb, hfb, rfl⟩ := h
    unfold flacFrame at hfb
    split at hfb
    · simp at hfb
    split at hfb
    · rename_i htag
      split at hfb
      · simp at hfb
      simp only [Except.ok.injEq] at hfb
      subst hfb
      have hsz : 0 < file.length - pos - 128 := by
        -- the tag would start at `pos`
        rcases Nat.eq_zero_or_pos (file.length - pos - 128) with h0 | h0
        · exfalso
          have e : file.length - 128 = pos := by omega
          rw [e] at htag
          rename_i hnt _ _ _ _ _ _
          apply hnt
          have : readAt file pos 4 = mTAG ++ (readAt file pos 4).drop 3 := by
            rw [← htag]; unfold readAt
            rw [show (file.drop pos).take 3 = ((file.drop pos).take 4).take 3 by rw [List.take_take]; rfl,
              List.take_append_drop]
          rw [this]; simp [mTAG]
        · exact h0
      refine hp 0 0 n rfl rfl (by simpa using hsz) ?_
      simp only [flacContents, readAt_length, List.length_nil]; omega
    · simp only [Except.ok.injEq] at hfb
      subst hfb
      refine hp 0 0 n rfl rfl (by simp; omega) ?_
      simp only [flacContents, readAt_length, List.length_nil]; omega
  · simp only [bind_eq_ok, pure_eq_ok, Except.ok.injEq, Option.some.injEq] at h
    obtain ⟨fb, hfb, rfl⟩ := h
    unfold flacMeta at hfb
    rw [bind_eq_ok] at hfb
    obtain ⟨sz, _, hfb⟩ := hfb
    split at hfb
    · simp at hfb
    simp only [pure_eq_ok, Except.ok.injEq] at hfb
    subst hfb
    have : 0 < (readAt file pos 4).length := by rw [readAt_length]; omega
    exact hp (readAt file pos 4).length 0 n rfl rfl (by omega) (by omega)

theorem flacRead_fuel (file : Bytes) (pos : Nat) : flacRead file pos ≠ .error .fuel := by
  unfold flacRead
  split
  · simp
  simp only
  split
  · simp
  split
  · unfold decodeId3Size; split <;> simp
  split
  · simp
  split
  · simp
  split
  · unfold flacFrame; split
    · simp
    split
    · split <;> simp
    · simp
  · unfold flacMeta unpackBeAt
    split
    · rw [ok_bind]; split <;> simp
    · simp

/-- C38: reading a FLAC or FLAC-SRS file always ends, whatever the file contains. -/
theorem flac_terminates {σ : Type} {file : Bytes} {body : σ → FlacBlock → Res (σ × FlacNext)}
    (hb : ∀ s b, body s b ≠ .error .fuel) (s : σ) : flacAll file body s ≠ .error .fuel := by
  unfold flacAll
  have key : ∀ (fuel pos : Nat) (s : σ), file.length < pos + fuel → 0 < fuel →
      flacLoop file body fuel pos s ≠ .error .fuel := by
    intro fuel
    induction fuel with
    | zero => intro pos s _ h; omega
    | succ fuel ih =>
      intro pos s hlt _
      rw [flacLoop]
      have hrf := flacRead_fuel file pos
      cases hr : flacRead file pos with
      | error e =>
        intro he
        rw [hr] at hrf
        simp at he
        exact hrf (by rw [he])
      | ok o =>
        rw [ok_bind]
        cases o with
        | none => simp
        | some b =>
          simp only
          have hbf := hb s b
          cases hbody : body s b with
          | error e =>
            intro he
            rw [hbody] at hbf
            simp at he
            exact hbf (by rw [he])
          | ok r =>
            obtain ⟨s', n⟩ := r
            rw [ok_bind]
            simp only
            split
            · simp
            · have := flacRead_progress hr n
              exact ih _ _ (by omega) (by omega)
  exact key _ _ _ (by omega) (by omega)

/-! ### Files with tags are not rebuilt -/

/-- C38 is violated by ID3v2 tags: a FLAC file that starts with one gets an SRS, from which
nothing is ever rebuilt (`TypeError` in main.py:3771 on Python 3). -/
theorem flac_id3_never_rebuilt {app name : Str} {sample srs main : Bytes} {fp : Option (Nat × Bytes)}
    {bigFile : Bool} {check : Option Bytes} (hid : mID3 <+: sample)
    (h : srsFlacCreate app name sample fp bigFile check = .ok srs) (r : SrsResult) :
    srsFlacReconstruct srs main ≠ .ok r := by
  -- the SRS starts with the tag as well
  have hsrs : mID3 <+: srs := by
    unfold srsFlacCreate at h
    split at h
    · simp at h
    rw [bind_eq_ok] at h
    obtain ⟨⟨crc, tracks⟩, _, h⟩ := h
    simp only at h
    split at h
    · simp at h
    rw [bind_eq_ok] at h
    obtain ⟨tr, _, h⟩ := h
    unfold flacCreateSrs flacAll at h
    rw [flacLoop, bind_eq_ok] at h
    obtain ⟨o, ho, h⟩ := h
    obtain ⟨rest, rfl⟩ := hid
    cases rest with
    | nil =>
      unfold flacRead at ho
      simp [mID3, mFLaC, readAt, decodeId3Size, slice] at ho
    | cons x rest =>
      unfold flacRead at ho
      rw [if_neg (by simp [mID3])] at ho
      have hr : readAt (mID3 ++ x :: rest) 0 4 = [0x49, 0x44, 0x33, x] := by simp [readAt, mID3]
      simp only [hr] at ho
      rw [if_neg (by simp [mFLaC]), if_pos (by simp [mID3]), bind_eq_ok] at ho
      obtain ⟨sz, hsz, ho⟩ := ho
      simp only [pure_eq_ok, Except.ok.injEq] at ho
      subst ho
      simp only [bind_eq_ok] at h
      obtain ⟨⟨out, n⟩, hb, h⟩ := h
      have hpre : ∀ y : Bytes, mID3 <+: (readAt (mID3 ++ x :: rest) 0 10) ++ y := by
        intro y; simp [readAt, mID3]
      have hout : mID3 <+: out := by
        unfold flacCreateBlock at hb
        simp [FlacBlock.isFrame] at hb
        rw [← hb.1]
        exact hpre _
      simp only at h
      split at h
      · simp only [pure_eq_ok, Except.ok.injEq] at h; exact h ▸ hout
      · refine flacLoop_inv (fun s : Bytes => mID3 <+: s) ?_ _ _ _ _ hout h
        intro s b s' n hs hb
        unfold flacCreateBlock at hb
        simp only [bind_eq_ok] at hb
        obtain ⟨s1, hs1, hb⟩ := hb
        have h1 : mID3 <+: s1 := by
          split at hs1
          · simp only [bind_eq_ok, pure_eq_ok, Except.ok.injEq] at hs1
            obtain ⟨i, _, rfl⟩ := hs1
            exact (hs.trans (List.prefix_append _ _)).trans (List.prefix_append _ _)
          · simp only [Except.ok.injEq] at hs1
            subst hs1
            exact hs.trans (List.prefix_append _ _)
        split at hb
        · simp only [pure_eq_ok, Except.ok.injEq, Prod.mk.injEq] at hb
          exact hb.1 ▸ h1
        · simp only [pure_eq_ok, Except.ok.injEq, Prod.mk.injEq] at hb
          exact hb.1 ▸ h1.trans (List.prefix_append _ _)
  intro hr
  obtain ⟨f, tracks, p, tr, d, out, crc, hl, _, _, hreb, rfl⟩ := reconstruct_parts hr
  unfold flacRebuild at hreb
  rw [bind_eq_ok] at hreb
  obtain ⟨s, hs, _⟩ := hreb
  unfold flacAll at hs
  rw [flacLoop, bind_eq_ok] at hs
  obtain ⟨o, ho, hs⟩ := hs
  obtain ⟨rest, rfl⟩ := hsrs
  unfold flacRead at ho
  rw [if_neg (by simp [mID3])] at ho
  have hr : readAt (mID3 ++ rest) 0 4 ≠ mFLaC ∧ mID3.isPrefixOf (readAt (mID3 ++ rest) 0 4) = true := by
    cases rest <;> simp [readAt, mID3, mFLaC]
  simp only at ho
  rw [if_neg hr.1, if_pos hr.2, bind_eq_ok] at ho
  obtain ⟨sz, hsz, ho⟩ := ho
  simp only [pure_eq_ok, Except.ok.injEq] at ho
  subst ho
  simp [flacRebuildBlock, flacIsSrs] at hs

/-! ### Examples -/

/-- A small FLAC file: stream information and padding, and 120 bytes of audio. -/
def exMetas : List FlacMeta := [⟨0, List.replicate 34 7⟩, ⟨0x81, [0, 0]⟩]
def exFrames : Bytes := 0xFF :: 0xF8 :: List.replicate 118 5

def endsWithTagB (file : Bytes) : Bool := decide (128 ≤ file.length) && decide (readAt file (file.length - 128) 3 = mTAG)

theorem noTag_of_check {file : Bytes} (h : endsWithTagB file = false) : ¬ EndsWithTag file := by
  intro ht
  have hl : 128 ≤ file.length := by
    obtain ⟨pre, post, rfl, hp⟩ := ht; simp; omega
  rw [← endsWithTag_iff hl] at ht
  simp [endsWithTagB, hl, ht] at h

theorem exPlain : PlainFlac exMetas exFrames where
  fine := by decide
  last := ⟨[⟨0, List.replicate 34 7⟩], ⟨0x81, [0, 0]⟩, rfl, by decide, by decide⟩
  frame := ⟨_, rfl⟩
  noTag := noTag_of_check (by decide +kernel)

/-- A file with the same audio, a tag in front, another one behind and other metadata. -/
def exId3 : Bytes := [0x49, 0x44, 0x33, 4, 0, 0, 0, 0, 0, 2, 1, 1]
def exMain : Bytes := exId3 ++ (flacBytes [⟨0x80, List.replicate 34 7⟩] exFrames ++ (mTAG ++ List.replicate 125 0x20))

theorem exId3_ok : IsId3v2 exId3 :=
  ⟨[4, 0, 0], 0, 0, 0, 2, [1, 1], rfl, by decide, by decide, by decide, by decide, by decide, rfl⟩

theorem exMain_ok : FlacWithFrames exMain exFrames :=
  ⟨exId3, _, mTAG ++ List.replicate 125 0x20, rfl, Or.inr exId3_ok, by decide, Or.inr ⟨rfl, by decide⟩⟩

set_option maxRecDepth 100000 in
example : ∃ srs, srsFlacCreate (str "app") (str "/x/a.flac") (flacBytes exMetas exFrames) (some (215, [65, 81])) false none = .ok srs ∧
    srsFlacReconstruct srs exMain = .ok ⟨flacBytes exMetas exFrames, 168, (crc32 (flacBytes exMetas exFrames) 0).toNat, true⟩ := by
  have hsome : (srsFlacCreate (str "app") (str "/x/a.flac") (flacBytes exMetas exFrames) (some (215, [65, 81])) false none).isOk = true := by
    decide +kernel
  cases h : srsFlacCreate (str "app") (str "/x/a.flac") (flacBytes exMetas exFrames) (some (215, [65, 81])) false none with
  | error e => rw [h] at hsome; cases hsome
  | ok srs =>
    exact ⟨srs, rfl, flac_rebuilt_partial exPlain (by simp) h exMain_ok (by decide)⟩

set_option maxRecDepth 100000 in
/-- C38 is false in general: the file `exMain` is a FLAC file with tags. -/
theorem flac_tags_not_rebuilt : ¬ flac_rebuilt := by
  intro hall
  have hsome : (srsFlacCreate (str "app") (str "/x/a.flac") exMain none false none).isOk = true := by decide +kernel
  cases h : srsFlacCreate (str "app") (str "/x/a.flac") exMain none false none with
  | error e => rw [h] at hsome; cases hsome
  | ok srs =>
    obtain ⟨r, hr, _⟩ := hall _ _ _ _ _ _ _ _ exMain_ok exMain_ok h
    exact flac_id3_never_rebuilt ⟨_, rfl⟩ h r hr

/-- A FLAC file with a block of type 115 of its own loses it: the rebuilt file is wrong. -/
def exStu : Bytes := flacBytes [⟨0, List.replicate 34 7⟩, ⟨0x73, [1]⟩, ⟨0x81, [0, 0]⟩] exFrames

set_option maxRecDepth 100000 in
theorem flac_own_block_lost : ∃ srs r, srsFlacCreate (str "app") (str "/x/a.flac") exStu none false none = .ok srs ∧
    srsFlacReconstruct srs exMain = .ok r ∧ r.good = false := by
  have hb : (match srsFlacCreate (str "app") (str "/x/a.flac") exStu none false none with
    | .ok srs => (match srsFlacReconstruct srs exMain with | .ok r => !r.good | _ => false)
    | _ => false) = true := by decide +kernel
  cases h : srsFlacCreate (str "app") (str "/x/a.flac") exStu none false none with
  | error e => rw [h] at hb; cases hb
  | ok srs =>
    rw [h] at hb
    cases hr : srsFlacReconstruct srs exMain with
    | error e => simp only [hr] at hb; cases hb
    | ok r =>
      simp only [hr] at hb
      exact ⟨srs, r, rfl, hr, by simpa using hb⟩

end Rescene.Props
