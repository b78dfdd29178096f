import Verif.Lemmas.Mp3
import Verif.Props.Flac
/-
C39: MP3 files, from the file to the SRS and back.
-/
namespace Rescene.Props
open Rescene.Spec

/-- The file with these parts. -/
def mp3File (front : List Bytes) (mid : Bytes) (t : Tags) : Bytes := front.flatten ++ (mid ++ t.bytes)

set_option maxRecDepth 100000 in
theorem e0_bits (b : UInt8) (h : 0xE0 ≤ b.toNat) : b &&& 0xE0 = 0xE0 := by
  have : ∀ k, k < 256 → 0xE0 ≤ k → UInt8.ofNat k &&& 0xE0 = 0xE0 := by decide
  have h2 := this b.toNat b.toNat_lt h
  rwa [UInt8.ofNat_toNat] at h2

theorem sound_marker {s : Bytes} (h : IsSound s) :
    markerBad (s.take 4) = false ∧ ¬ mSRS <+: s ∧ s.take 3 ≠ mSRS ∧ 4 ≤ s.length := by
  rcases h with ⟨b, r, rfl, hb, hl⟩ | ⟨r, rfl⟩
  · obtain ⟨x, y, r, rfl⟩ : ∃ x y r', r = x :: y :: r' := by
      match r, hl with
      | x :: y :: r', _ => exact ⟨x, y, r', rfl⟩
    refine ⟨?_, ?_, ?_, by simp⟩
    · simp [markerBad, isSync, e0_bits b hb]
    · simp [mSRS]
    · simp [mSRS]
  · refine ⟨?_, ?_, ?_, by simp⟩
    · simp [markerBad, mRIFF]
    · simp [mSRS]
    · simp [mSRS]

/-- The reader takes everything between the tags as one block. -/
theorem main_sound {front : List Bytes} {sound : Bytes} {t : Tags} (h4 : 4 ≤ sound.length)
    (hno : ¬ mSRS <+: sound) :
    mp3Main (mp3File front sound t) (front.flatten.length : Nat) (front.flatten.length + sound.length : Nat) =
      .ok (place [(.mp3, sound)] front.flatten.length) := by
  have hr : readAt (mp3File front sound t) front.flatten.length 4 = sound.take 4 := by
    unfold mp3File readAt
    rw [List.drop_left, List.take_append_of_le_length h4]
  unfold mp3Main
  rw [seekRead_int (p := (front.flatten.length : Int)) (n := 4) (a := front.flatten.length) (b := 4) rfl rfl, ok_bind, hr]
  have hl : (sound.take 4).length = 4 := by simp; omega
  rw [if_neg (by intro h; rw [h] at hl; simp at hl), if_neg (by omega), if_neg]
  · simp [place, mblk]
    omega
  · intro h
    apply hno
    refine ⟨sound.drop 3, ?_⟩
    rw [List.take_take] at h
    rw [← h, show min 3 4 = 3 from rfl, List.take_append_drop]

theorem blocks_sound {front : List Bytes} {sound : Bytes} {t : Tags} (h : Tagged front sound t)
    (hs : SoundIn front sound) :
    ∃ v, mp3Blocks (mp3File front sound t) =
      .ok (place (front.map (fun f => (.id3, f)) ++ ([(.mp3, sound)] ++ tailParts v t)) 0) := by
  obtain ⟨h1, h2⟩ : (front = [] ∨ markerBad (sound.take 4) = false) ∧ ¬ mSRS <+: sound := by
    rcases hs with hs | ⟨hf, hs⟩
    · obtain ⟨h1, h2, _, _⟩ := sound_marker hs
      exact ⟨Or.inr h1, h2⟩
    · exact ⟨Or.inl hf, hs⟩
  have h4 := h.four
  refine mp3Blocks_tagged h rfl h1 (by simp) ?_ (main_sound h4 h2)
  intro p hp
  simp only [List.mem_singleton] at hp
  subst hp
  intro h; simp only at h; rw [h] at h4; simp at h4

theorem front_bytes (front : List Bytes) : partBytes (front.map fun f => (Mp3Type.id3, f)) = front.flatten := by
  simp only [partBytes, List.map_map]
  congr 1
  rw [show ((fun x : Mp3Type × Bytes => x.snd) ∘ fun f => (Mp3Type.id3, f)) = id from rfl, List.map_id]

theorem parts_file (front : List Bytes) (mids : List (Mp3Type × Bytes)) (v : Nat) (t : Tags) :
    partBytes (front.map (fun f => (.id3, f)) ++ (mids ++ tailParts v t)) = mp3File front (partBytes mids) t := by
  simp [front_bytes, tailParts_bytes, mp3File]

/-- A part that is a tag. -/
def IsTag (p : Mp3Type × Bytes) : Prop := p.1 ≠ .mp3 ∧ ∀ m, p.1 ≠ .srs m

theorem front_tags (front : List Bytes) : ∀ p ∈ front.map (fun f => (Mp3Type.id3, f)), IsTag p := by
  intro p hp
  obtain ⟨f, _, rfl⟩ := List.mem_map.1 hp
  exact ⟨by simp, by simp⟩

theorem tail_tags (v : Nat) (t : Tags) : ∀ p ∈ tailParts v t, IsTag p := by
  intro p hp
  have := (List.mem_filter.1 hp).1
  simp only [List.mem_cons, List.not_mem_nil, or_false] at this
  rcases this with rfl | rfl | rfl | rfl <;> exact ⟨by simp, by simp⟩

theorem tag_not_main {p : Mp3Type × Bytes} (h : IsTag p) (pos : Nat) : (mblk p.1 p.2 pos).isMain = false := by
  simp [Mp3Block.isMain, mblk, h.1, h.2]

theorem tag_not_srs {p : Mp3Type × Bytes} (h : IsTag p) (pos : Nat) : (mblk p.1 p.2 pos).isSrs = false := by
  simp [Mp3Block.isSrs, mblk, h.2]

/-- A loop over tags, all of which it treats the same way. -/
theorem foldlM_tags {σ : Type} {g : σ → Mp3Type × Bytes → Res σ} {k : σ → Bytes → σ}
    (l : List (Mp3Type × Bytes)) : ∀ s, (∀ p ∈ l, IsTag p) →
    (∀ s p, IsTag p → g s p = .ok (k s p.2)) → l.foldlM g s = .ok ((l.map (·.2)).foldl k s) := by
  induction l with
  | nil => intro s _ _; rfl
  | cons p l ih =>
    intro s ht hg
    rw [List.foldlM_cons, hg s p (ht p (by simp)), ok_bind, ih _ (fun q hq => ht q (by simp [hq])) hg]
    rfl

/-- Reading a part of a block. -/
theorem part_mblk {file pre x post : Bytes} {ty : Mp3Type} (hf : file = pre ++ (x ++ post)) {n : Int} {k : Nat}
    (hn : n = k) (hk : k ≤ x.length) : mp3Part file (mblk ty x pre.length) n 0 = .ok (x.take k) := by
  unfold mp3Part mblk
  dsimp only
  subst hn
  rw [if_neg (by omega), seekRead_int (p := (pre.length : Int) + 0) (n := (k : Int)) (a := pre.length) (b := k) (by omega) rfl]
  rw [hf]
  unfold readAt
  rw [List.drop_left, List.take_append_of_le_length hk]

/-! ### Making the SRS -/

/-- `mp3_profile_sample` on the parts. -/
def profilePart (s : Mp3Profile) (p : Mp3Type × Bytes) : Res Mp3Profile :=
  if p.1 = .mp3 ∨ p.1 = .srs mFLaC then
    .ok ⟨crc32 p.2 s.crc, s.meta_, s.tracks.put 1 { number := 1, dataLength := p.2.length, sig := p.2.take 256 }⟩
  else .ok ⟨crc32 p.2 s.crc, s.meta_ + p.2.length, s.tracks⟩

theorem profile_part {file : Bytes} (s : Mp3Profile) (ty : Mp3Type) (pre x post : Bytes)
    (hf : file = pre ++ (x ++ post)) :
    mp3ProfileBlock file s (mblk ty x pre.length) = profilePart s (ty, x) := by
  unfold mp3ProfileBlock profilePart
  by_cases hm : ty = .mp3 ∨ ty = .srs mFLaC
  · rw [if_pos (by simp [Mp3Block.isMain, mblk]; exact hm), if_pos hm, if_neg (by simp only [mblk]; omega)]
    have h0 : mp3Part file (mblk ty x pre.length) (mblk ty x pre.length).size 0 = .ok (x.take x.length) :=
      part_mblk (ty := ty) hf (k := x.length) rfl (by omega)
    rw [h0, ok_bind]
    have : mp3Part file (mblk ty x pre.length) (if 256 < (mblk ty x pre.length).size then 256 else (mblk ty x pre.length).size) 0 =
        .ok (x.take 256) := by
      by_cases h : (256 : Int) < (mblk ty x pre.length).size
      · rw [if_pos h]
        simp only [mblk] at h
        exact part_mblk (ty := ty) hf (k := 256) rfl (by omega)
      · rw [if_neg h]
        simp only [mblk] at h
        have := part_mblk (ty := ty) hf (k := x.length) rfl (by omega)
        rw [List.take_of_length_le (by omega)] at this
        rw [List.take_of_length_le (by omega)]
        exact this
    rw [this, ok_bind]
    simp [mblk]
  · rw [if_neg (by simp [Mp3Block.isMain, mblk]; simpa using hm), if_neg hm, contents_mblk rfl hf, ok_bind]
    simp [mblk]

theorem profile_tags (l : List Bytes) : ∀ s : Mp3Profile,
    l.foldl (fun s x => (⟨crc32 x s.crc, s.meta_ + x.length, s.tracks⟩ : Mp3Profile)) s =
      ⟨crc32 l.flatten s.crc, s.meta_ + l.flatten.length, s.tracks⟩ := by
  induction l with
  | nil => intro s; cases s; simp [crc32]
  | cons x l ih =>
    intro s
    rw [List.foldl_cons, ih]
    simp only [List.flatten_cons, crc32_append, List.length_append]
    congr 1; omega

theorem profilePart_tag (s : Mp3Profile) (p : Mp3Type × Bytes) (h : IsTag p) :
    profilePart s p = .ok ⟨crc32 p.2 s.crc, s.meta_ + p.2.length, s.tracks⟩ := by
  unfold profilePart
  rw [if_neg (by rintro (h' | h'); exact h.1 h'; exact h.2 _ h')]

/-- What is found out about an MP3 file. -/
theorem mp3_profile {front : List Bytes} {sound : Bytes} {t : Tags} (h : Tagged front sound t) (hs : SoundIn front sound) :
    mp3Profile (mp3File front sound t) = .ok (crc32 (mp3File front sound t) 0,
      [(1, { number := 1, dataLength := sound.length, sig := sound.take 256 })]) := by
  obtain ⟨v, hb⟩ := blocks_sound h hs
  unfold mp3Profile
  rw [hb, ok_bind]
  have := foldlM_place (file := mp3File front sound t) (f := mp3ProfileBlock (mp3File front sound t))
    (g := profilePart) (fun s ty pre x post hf => profile_part s ty pre x post hf)
    (front.map (fun f => (.id3, f)) ++ ([(.mp3, sound)] ++ tailParts v t)) [] [] ⟨0, 0, []⟩
    (by rw [parts_file]; simp)
  simp only [List.length_nil] at this
  rw [this, List.foldlM_append, foldlM_tags (k := fun (s : Mp3Profile) x => ⟨crc32 x s.crc, s.meta_ + x.length, s.tracks⟩) _ _ (front_tags front) profilePart_tag, ok_bind, profile_tags,
    List.foldlM_append]
  have e : ∀ s : Mp3Profile, [(Mp3Type.mp3, sound)].foldlM profilePart s =
      .ok ⟨crc32 sound s.crc, s.meta_, s.tracks.put 1 { number := 1, dataLength := sound.length, sig := sound.take 256 }⟩ := by
    intro s
    rw [List.foldlM_cons, profilePart, if_pos (Or.inl rfl)]
    rfl
  rw [e, ok_bind, foldlM_tags (k := fun (s : Mp3Profile) x => ⟨crc32 x s.crc, s.meta_ + x.length, s.tracks⟩) _ _ (tail_tags v t) profilePart_tag, ok_bind, profile_tags]
  have f1 := front_bytes front
  have f2 := tailParts_bytes v t
  unfold partBytes at f1 f2
  rw [f1, f2]
  dsimp only
  rw [if_neg]
  · simp only [pure_eq_ok, mp3File, crc32_append, Tracks.put]
  · simp [mp3File, Tracks.put]; omega

/-- `mp3_create_srs` on the parts. -/
def createPart (ins : Res Bytes) (s : Bytes) (p : Mp3Type × Bytes) : Res Bytes :=
  if p.1 = .mp3 ∨ p.1 = .srs mFLaC then do
    let i ← ins
    return s ++ i
  else .ok (s ++ p.2)

theorem create_part {file : Bytes} {ins : Res Bytes} (s : Bytes) (ty : Mp3Type) (pre x post : Bytes)
    (hf : file = pre ++ (x ++ post)) : mp3CreateBlock file ins s (mblk ty x pre.length) = createPart ins s (ty, x) := by
  unfold mp3CreateBlock createPart
  by_cases hm : ty = .mp3 ∨ ty = .srs mFLaC
  · rw [if_pos (by simp [Mp3Block.isMain, mblk]; exact hm), if_pos hm]
  · rw [if_neg (by simp [Mp3Block.isMain, mblk]; simpa using hm), contents_mblk rfl hf, if_neg hm]
    rfl

theorem createPart_tag {ins : Res Bytes} (s : Bytes) (p : Mp3Type × Bytes) (h : IsTag p) :
    createPart ins s p = .ok (s ++ p.2) := by
  unfold createPart
  rw [if_neg (by rintro (h' | h'); exact h.1 h'; exact h.2 _ h')]

/-- The SRS file has the custom blocks instead of the sound. -/
theorem mp3_create {front : List Bytes} {sound : Bytes} {t : Tags} (h : Tagged front sound t) (hs : SoundIn front sound)
    {app name : Str} {size crc : Nat} {tracks : Tracks} {fp : Option (Nat × Bytes)} {bigFile : Bool} {srs : Bytes}
    (hc : mp3CreateSrs app name size crc tracks fp bigFile (mp3File front sound t) = .ok srs) :
    ∃ ins, mp3Insert app name size crc tracks fp bigFile = .ok ins ∧ srs = mp3File front ins t := by
  obtain ⟨v, hb⟩ := blocks_sound h hs
  unfold mp3CreateSrs at hc
  rw [hb, ok_bind] at hc
  have := foldlM_place (file := mp3File front sound t) (g := createPart (mp3Insert app name size crc tracks fp bigFile))
    (fun s ty pre x post hf => create_part s ty pre x post hf)
    (front.map (fun f => (.id3, f)) ++ ([(.mp3, sound)] ++ tailParts v t)) [] [] []
    (by rw [parts_file]; simp)
  simp only [List.length_nil] at this
  rw [this, List.foldlM_append, foldlM_tags (k := fun s x => s ++ x) _ _ (front_tags front) createPart_tag,
    ok_bind, List.foldlM_append, List.foldlM_cons, createPart, if_pos (Or.inl rfl)] at hc
  simp only [bind_eq_ok] at hc
  obtain ⟨a, ⟨b, ⟨ins, hins, hb'⟩, ha⟩, hr⟩ := hc
  rw [foldlM_tags (k := fun s x => s ++ x) _ _ (tail_tags v t) createPart_tag] at hr
  refine ⟨ins, hins, ?_⟩
  have cat : ∀ (l : List Bytes) (s : Bytes), l.foldl (fun s x => s ++ x) s = s ++ l.flatten := by
    intro l
    induction l with
    | nil => intro s; simp
    | cons x l ih => intro s; rw [List.foldl_cons, ih]; simp
  simp only [List.foldlM_nil, pure_eq_ok, Except.ok.injEq] at hb' ha hr
  have f1 := front_bytes front
  have f2 := tailParts_bytes v t
  unfold partBytes at f1 f2
  rw [← hr, ← ha, ← hb', cat, cat, f1, f2]
  simp [mp3File]

/-- The custom blocks. -/
theorem mp3_insert {app name : Str} {size crc : Nat} {t : TrackData}
    {fp : Option (Nat × Bytes)} {bigFile : Bool} {ins : Bytes} (hnum : t.number = 1) (hfl : t.flags = 0)
    (h : mp3Insert app name size crc [(1, t)] fp bigFile = .ok ins) :
    ∃ f d : Bytes, ∃ us : List (Bytes × Bytes), ins = sblk mSRSF f ++ (sblk mSRST d ++ (us.map fun u => sblk u.1 u.2).flatten) ∧
      8 + f.length < 2 ^ 24 ∧ 8 + d.length < 2 ^ 32 ∧
      fileParse f = .ok ⟨3, app, basename name, size, crc % 2 ^ 32⟩ ∧
      trackParse d = .ok (readTrack bigFile t) ∧
      ((us = [] ∧ ∀ du pr, fp = some (du, pr) → ¬ (du < 2 ^ 32 ∧ 16 + pr.length < 2 ^ 32)) ∨
        ∃ u, us = [(mSRSP, u)] ∧ 8 + u.length < 2 ^ 32 ∧ ∃ du pr, fp = some (du, pr) ∧
        u = le 4 du ++ (le 4 pr.length ++ pr) ∧ readFingerprint u = .ok (du, pr)) := by
  unfold mp3Insert mp3Track at h
  simp only [bind_eq_ok, List.mapM_cons, List.mapM_nil, pure_eq_ok, Except.ok.injEq, srsBlock_eq_ok] at h
  obtain ⟨f, hf, fb, ⟨hlf, rfl⟩, tb, ⟨_, ⟨d, hd, _, ⟨hld, rfl⟩, rfl⟩, _, rfl, rfl⟩, rfl⟩ := h
  have hread : trackParse d = .ok (readTrack bigFile t) := by
    have e : (if bigFile = true then { t with flags := t.flags ||| 4 } else t) =
        { t with flags := if bigFile then t.flags ||| 4 else t.flags } := by cases bigFile <;> rfl
    rw [e] at hd
    have := Props.track_data_small_number
      { t with flags := if bigFile then t.flags ||| 4 else t.flags } (by simp [hnum])
      (by rw [hfl]; cases bigFile <;> simp) d [] hd
    rw [List.append_nil] at this
    exact this
  have hfread : fileParse f = .ok ⟨3, app, basename name, size, crc % 2 ^ 32⟩ := by
    have := Props.file_data_round_trip hf []
    rwa [List.append_nil] at this
  have hu : ∃ us : List (Bytes × Bytes), mp3Fingerprint fp = (us.map fun u => sblk u.1 u.2).flatten ∧
      ((us = [] ∧ ∀ du pr, fp = some (du, pr) → ¬ (du < 2 ^ 32 ∧ 16 + pr.length < 2 ^ 32)) ∨
        ∃ u, us = [(mSRSP, u)] ∧ 8 + u.length < 2 ^ 32 ∧ ∃ du pr, fp = some (du, pr) ∧
        u = le 4 du ++ (le 4 pr.length ++ pr) ∧ readFingerprint u = .ok (du, pr)) := by
    unfold mp3Fingerprint
    cases fp with
    | none => exact ⟨[], rfl, Or.inl ⟨rfl, by simp⟩⟩
    | some dp =>
      obtain ⟨du, pr⟩ := dp
      simp only
      split
      · rename_i x b hb
        simp only [bind_eq_ok, pack_eq_ok, pure_eq_ok, Except.ok.injEq] at hb
        obtain ⟨n, ⟨hn, rfl⟩, _, ⟨hd1, rfl⟩, _, ⟨hd2, rfl⟩, rfl⟩ := hb
        refine ⟨[(mSRSP, le 4 du ++ (le 4 pr.length ++ pr))], ?_, Or.inr ⟨_, rfl, ?_, du, pr, rfl, rfl, ?_⟩⟩
        · simp only [List.map_cons, List.map_nil, List.flatten_cons, List.flatten_nil, List.append_nil, sblk]
          rw [show 8 + (le 4 du ++ (le 4 pr.length ++ pr)).length = 8 + 4 + 4 + pr.length by simp; omega]
        · simp; omega
        · unfold readFingerprint
          have u1 := unpackAt_append (k := 4) (n := du) (off := 0) [] (le 4 pr.length ++ pr) rfl (by omega)
          have u2 := unpackAt_append (k := 4) (n := pr.length) (off := 4) (le 4 du) pr (by simp) (by omega)
          rw [List.nil_append] at u1
          rw [u1, ok_bind, u2, ok_bind]
          have : slice (le 4 du ++ (le 4 pr.length ++ pr)) 8 (8 + pr.length) = pr := by
            have := Props.slice_mid (pre := le 4 du ++ le 4 pr.length) (mid := pr) (post := [])
              (a := 8) (b := 8 + pr.length) (by simp) rfl
            simpa using this
          rw [this]; rfl
      · rename_i e he
        refine ⟨[], rfl, Or.inl ⟨rfl, ?_⟩⟩
        intro du' pr' heq ⟨h1, h2⟩
        simp only [Option.some.injEq, Prod.mk.injEq] at heq
        obtain ⟨rfl, rfl⟩ := heq
        rw [pack_ok (by omega), ok_bind, pack_ok (by omega), ok_bind, pack_ok (by omega), ok_bind] at he
        simp at he
  obtain ⟨us, hus, hus'⟩ := hu
  have hflen : 8 + f.length < 2 ^ 24 := by
    unfold fileSerialize at hf
    simp only [bind_eq_ok, pack_eq_ok, pure_eq_ok, Except.ok.injEq] at hf
    obtain ⟨a, _, n, _, _, ⟨_, rfl⟩, _, ⟨h1, rfl⟩, _, ⟨h2, rfl⟩, _, ⟨_, rfl⟩, _, ⟨_, rfl⟩, rfl⟩ := hf
    simp; omega
  refine ⟨f, d, us, ?_, hflen, hld, hfread, hread, hus'⟩
  rw [hus]
  simp

/-! ### Reading the SRS -/

/-- The parts for blocks of an SRS. -/
def srsParts (items : List (Bytes × Bytes)) : List (Mp3Type × Bytes) := items.map fun i => (.srs i.1, sblk i.1 i.2)

theorem srsBlocks_items {file : Bytes} {stop : Nat} (items : List (Bytes × Bytes)) : ∀ (pre post : Bytes) (fuel : Nat),
    (∀ i ∈ items, i.1.length = 4 ∧ i.1.any (· ≥ 128) = false ∧ 8 + i.2.length < 2 ^ 32) →
    file = pre ++ (partBytes (srsParts items) ++ post) → stop = pre.length + (partBytes (srsParts items)).length →
    items.length < fuel →
    mp3SrsBlocks file stop fuel pre.length = .ok (place (srsParts items) pre.length) := by
  induction items with
  | nil =>
    intro pre post fuel _ _ hstop hfuel
    obtain ⟨k, rfl⟩ : ∃ k, fuel = k + 1 := ⟨fuel - 1, by simp at hfuel; omega⟩
    simp only [srsParts, List.map_nil, partBytes_nil, List.length_nil] at hstop
    rw [mp3SrsBlocks, if_neg (by omega)]
    rfl
  | cons i items ih =>
    intro pre post fuel hi hf hstop hfuel
    obtain ⟨k, rfl⟩ : ∃ k, fuel = k + 1 := ⟨fuel - 1, by simp at hfuel; omega⟩
    obtain ⟨m, d⟩ := i
    obtain ⟨h4, has, hl⟩ := hi (m, d) (by simp)
    simp only at h4 has hl
    have hblen := sblk_length (d := d) h4
    have hf1 : file = pre ++ (m ++ (le 4 (8 + d.length) ++ (d ++ (partBytes (srsParts items) ++ post)))) := by
      rw [hf]; simp [srsParts, sblk]
    have hstop' : stop = pre.length + (8 + d.length) + (partBytes (srsParts items)).length := by
      rw [hstop]; simp only [srsParts, List.map_cons, partBytes_cons, List.length_append, hblen]; omega
    have r1 : seekRead file (pre.length : Nat) 4 = .ok m := by
      rw [seekRead_int (p := (pre.length : Int)) (n := 4) (a := pre.length) (b := 4) rfl rfl, hf1]
      exact congrArg _ (readAt_append _ _ _ rfl h4)
    have r2 : seekRead file ((pre.length : Nat) + 4) 4 = .ok (le 4 (8 + d.length)) := by
      rw [seekRead_int (p := (pre.length : Int) + 4) (n := 4) (a := pre.length + 4) (b := 4) (by omega) rfl, hf1, ← List.append_assoc]
      exact congrArg _ (readAt_append _ _ _ (by simp [h4]) (by simp))
    have u1 := unpackAt_append (k := 4) (n := 8 + d.length) (off := 0) [] [] rfl (by omega)
    simp only [List.nil_append, List.append_nil] at u1
    rw [mp3SrsBlocks, if_pos (by omega), r1, ok_bind, r2, ok_bind, u1]
    dsimp only
    rw [if_neg (by rw [has]; simp), if_neg (by omega), if_neg (by omega)]
    have := ih (pre ++ sblk m d) post k (fun x hx => hi x (by simp [hx])) (by rw [hf]; simp [srsParts])
      (by rw [List.length_append, hblen]; omega) (by simp at hfuel; omega)
    rw [List.length_append, hblen] at this
    rw [show ((pre.length : Nat) : Int) + ((8 + d.length : Nat) : Int) = ((pre.length + (8 + d.length) : Nat) : Int) by omega,
      this, ok_bind]
    simp only [srsParts, List.map_cons, place, mblk, hblen, pure_eq_ok]

theorem blocks_srs {front : List Bytes} {f d : Bytes} {us : List (Bytes × Bytes)} {t : Tags}
    (h : Tagged front (partBytes (srsParts ((mSRSF, f) :: (mSRST, d) :: us))) t)
    (hi : ∀ i ∈ ((mSRSF, f) :: (mSRST, d) :: us : List (Bytes × Bytes)), i.1.length = 4 ∧ i.1.any (· ≥ 128) = false ∧ 8 + i.2.length < 2 ^ 32) :
    ∃ v, mp3Blocks (mp3File front (partBytes (srsParts ((mSRSF, f) :: (mSRST, d) :: us))) t) =
      .ok (place (front.map (fun f => (.id3, f)) ++ (srsParts ((mSRSF, f) :: (mSRST, d) :: us) ++ tailParts v t)) 0) := by
  generalize hitems : ((mSRSF, f) :: (mSRST, d) :: us : List (Bytes × Bytes)) = items at *
  have hpre : mSRSF <+: partBytes (srsParts items) := by
    rw [← hitems]
    exact ⟨le 4 (8 + f.length) ++ (f ++ partBytes (srsParts ((mSRST, d) :: us))), by simp [srsParts, sblk]⟩
  have htake : (partBytes (srsParts items)).take 4 = mSRSF := by
    obtain ⟨r, hr⟩ := hpre
    rw [← hr]; rfl
  have hlen : ∀ l : List (Bytes × Bytes), (∀ i ∈ l, i.1.length = 4 ∧ i.1.any (· ≥ 128) = false ∧ 8 + i.2.length < 2 ^ 32) →
      8 * l.length ≤ (partBytes (srsParts l)).length := by
    intro l
    induction l with
    | nil => intro _; simp
    | cons i l ih =>
      intro hl
      have := ih (fun x hx => hl x (by simp [hx]))
      have h2 := sblk_length (d := i.2) (hl i (by simp)).1
      simp only [srsParts, List.map_cons, partBytes_cons, List.length_append, List.length_cons] at this ⊢
      omega
  have hl8 := hlen items hi
  refine mp3Blocks_tagged (file := mp3File front (partBytes (srsParts items)) t) h rfl (Or.inr (by rw [htake]; decide)) rfl ?_ ?_
  · intro p hp
    obtain ⟨i, hi', rfl⟩ := List.mem_map.1 hp
    have := sblk_length (d := i.2) (hi i hi').1
    intro he; simp only at he; rw [he] at this; simp at this; omega
  · unfold mp3Main
    have hr : readAt (mp3File front (partBytes (srsParts items)) t) front.flatten.length 4 = mSRSF := by
      unfold mp3File readAt
      rw [List.drop_left, List.take_append_of_le_length h.four, htake]
    rw [seekRead_int (p := (front.flatten.length : Int)) (n := 4) (a := front.flatten.length) (b := 4) rfl rfl, ok_bind, hr]
    rw [if_neg (by decide), if_neg (by decide), if_pos (by decide)]
    rw [show ((front.flatten.length : Nat) : Int) + (((front.flatten.length + (partBytes (srsParts items)).length : Nat) : Int) - (front.flatten.length : Nat)) =
      ((front.flatten.length + (partBytes (srsParts items)).length : Nat) : Int) by omega]
    exact srsBlocks_items items front.flatten t.bytes _ hi rfl rfl (by unfold mp3File; simp only [List.length_append]; omega)

/-- `mp3_load_srs` on the parts. -/
def loadPart (s : FlacLoad) (p : Mp3Type × Bytes) : Res FlacLoad :=
  if p.1 = .srs mSRSF then do
    let f ← fileParse (p.2.drop 8)
    return { s with file := some f }
  else if p.1 = .srs mSRST then do
    let t ← trackParse (p.2.drop 8)
    return { s with tracks := s.tracks.put t.number t }
  else if p.1 = .srs mSRSP then do
    let _ ← s.tracks.get 1
    let q ← readFingerprint (p.2.drop 8)
    return { s with print := some q }
  else .ok s

theorem load_part {file : Bytes} (s : FlacLoad) (ty : Mp3Type) (pre x post : Bytes)
    (hf : file = pre ++ (x ++ post)) : mp3LoadBlock file s (mblk ty x pre.length) = loadPart s (ty, x) := by
  unfold mp3LoadBlock loadPart
  rw [contents_mblk rfl hf]
  rfl

theorem drop_sblk {m d : Bytes} (h : m.length = 4) : (sblk m d).drop 8 = d := by
  unfold sblk
  rw [← List.append_assoc, List.drop_append_of_le_length (by simp [h]), List.drop_eq_nil_of_le (by simp [h])]
  rfl

theorem mp3_load {front : List Bytes} {f d : Bytes} {us : List (Bytes × Bytes)} {t : Tags} {fd : FileData} {td : TrackData}
    (h : Tagged front (partBytes (srsParts ((mSRSF, f) :: (mSRST, d) :: us))) t)
    (hfl : 8 + f.length < 2 ^ 32) (hdl : 8 + d.length < 2 ^ 32) (hf : fileParse f = .ok fd)
    (hd : trackParse d = .ok td) (hnum : td.number = 1)
    (hu : us = [] ∨ ∃ u, us = [(mSRSP, u)] ∧ 8 + u.length < 2 ^ 32 ∧ ∃ p, readFingerprint u = .ok p) :
    (∃ p, mp3LoadSrs (mp3File front (partBytes (srsParts ((mSRSF, f) :: (mSRST, d) :: us))) t) = .ok (fd, [(1, td)], p)) ∧
    ∃ v, mp3Blocks (mp3File front (partBytes (srsParts ((mSRSF, f) :: (mSRST, d) :: us))) t) =
      .ok (place (front.map (fun f => (.id3, f)) ++ (srsParts ((mSRSF, f) :: (mSRST, d) :: us) ++ tailParts v t)) 0) := by
  have hi : ∀ i ∈ ((mSRSF, f) :: (mSRST, d) :: us : List (Bytes × Bytes)), i.1.length = 4 ∧ i.1.any (· ≥ 128) = false ∧ 8 + i.2.length < 2 ^ 32 := by
    intro i hi
    simp only [List.mem_cons] at hi
    rcases hi with rfl | rfl | hi
    · exact ⟨rfl, (by decide : mSRSF.any (· ≥ 128) = false), hfl⟩
    · exact ⟨rfl, (by decide : mSRST.any (· ≥ 128) = false), hdl⟩
    · rcases hu with rfl | ⟨u, rfl, hul, _⟩
      · simp at hi
      · simp only [List.mem_singleton] at hi
        subst hi
        exact ⟨rfl, (by decide : mSRSP.any (· ≥ 128) = false), hul⟩
  obtain ⟨v, hb⟩ := blocks_srs h hi
  refine ⟨?_, v, hb⟩
  unfold mp3LoadSrs
  rw [hb, ok_bind]
  have := foldlM_place (file := mp3File front (partBytes (srsParts ((mSRSF, f) :: (mSRST, d) :: us))) t)
    (g := loadPart) (fun s ty pre x post hf => load_part s ty pre x post hf)
    (front.map (fun f => (.id3, f)) ++ (srsParts ((mSRSF, f) :: (mSRST, d) :: us) ++ tailParts v t)) [] [] ({} : FlacLoad)
    (by rw [parts_file]; simp)
  simp only [List.length_nil] at this
  have htag : ∀ (s : FlacLoad) (p : Mp3Type × Bytes), IsTag p → loadPart s p = .ok s := by
    intro s p hp
    unfold loadPart
    rw [if_neg (hp.2 _), if_neg (hp.2 _), if_neg (hp.2 _)]
  have hid : ∀ (l : List Bytes) (s : FlacLoad), l.foldl (fun s _ => s) s = s := by
    intro l
    induction l with
    | nil => intro s; rfl
    | cons x l ih => intro s; exact ih s
  rw [this, List.foldlM_append, foldlM_tags (k := fun s _ => s) _ _ (front_tags front) htag, ok_bind, hid,
    List.foldlM_append]
  have e1 : loadPart {} (.srs mSRSF, sblk mSRSF f) = .ok { file := some fd } := by
    unfold loadPart
    rw [if_pos rfl, drop_sblk rfl, hf]; rfl
  have e2 : loadPart { file := some fd } (.srs mSRST, sblk mSRST d) = .ok { file := some fd, tracks := [(1, td)] } := by
    unfold loadPart
    rw [if_neg (by simp only; decide), if_pos rfl, drop_sblk rfl, hd, ok_bind, hnum]; rfl
  simp only [srsParts, List.map_cons, List.foldlM_cons]
  rw [e1, ok_bind, e2, ok_bind]
  rcases hu with rfl | ⟨u, rfl, hul, p, hp⟩
  · refine ⟨none, ?_⟩
    rw [show (([] : List (Bytes × Bytes)).map fun i => (Mp3Type.srs i.1, sblk i.1 i.2)).foldlM loadPart { file := some fd, tracks := [(1, td)] } = .ok { file := some fd, tracks := [(1, td)] } from rfl]
    rw [ok_bind, foldlM_tags (k := fun s _ => s) _ _ (tail_tags v t) htag, ok_bind, hid]
    rfl
  · refine ⟨some p, ?_⟩
    have e3 : loadPart { file := some fd, tracks := [(1, td)] } (.srs mSRSP, sblk mSRSP u) =
        .ok { file := some fd, tracks := [(1, td)], print := some p } := by
      unfold loadPart
      rw [if_neg (by simp only; decide), if_neg (by simp only; decide), if_pos rfl, drop_sblk rfl, hp]; rfl
    simp only [List.map_cons, List.map_nil, List.foldlM_cons, List.foldlM_nil]
    rw [e3, ok_bind, pure_eq_ok, ok_bind, foldlM_tags (k := fun s _ => s) _ _ (tail_tags v t) htag, ok_bind, hid]
    rfl

/-! ### The main file -/

theorem find_main {front : List Bytes} {sound : Bytes} {t : Tags} (v : Nat) :
    (place (front.map (fun f => (.id3, f)) ++ ([(.mp3, sound)] ++ tailParts v t)) 0).find? Mp3Block.isMain =
      some (mblk .mp3 sound front.flatten.length) := by
  have key : ∀ (l : List (Mp3Type × Bytes)) (r : List (Mp3Type × Bytes)) (pos : Nat), (∀ p ∈ l, IsTag p) →
      (place (l ++ ((.mp3, sound) :: r)) pos).find? Mp3Block.isMain = some (mblk .mp3 sound (pos + (partBytes l).length)) := by
    intro l r
    induction l with
    | nil => intro pos _; simp [place, Mp3Block.isMain, mblk]
    | cons p l ih =>
      intro pos ht
      simp only [List.cons_append, place]
      rw [List.find?_cons_of_neg (by rw [tag_not_main (ht p (by simp))]; simp), ih _ (fun q hq => ht q (by simp [hq]))]
      simp [Nat.add_assoc]
  have := key (front.map (fun f => (.id3, f))) (tailParts v t) 0 (front_tags front)
  rw [front_bytes, Nat.zero_add] at this
  exact this

theorem mp3_find {front : List Bytes} {sound : Bytes} {t : Tags} (h : Tagged front sound t) (hs : SoundIn front sound)
    {td : TrackData} (hsig : td.sig = sound.take 256) :
    mp3Find [(1, td)] (mp3File front sound t) = .ok [(1, { td with
      matchOffset := (front.flatten.length : Nat), matchLength := min td.dataLength sound.length })] := by
  obtain ⟨v, hb⟩ := blocks_sound h hs
  unfold mp3Find
  rw [hb, ok_bind, find_main]
  dsimp only
  unfold mp3FindBlock
  rw [if_neg (by simp only [mblk]; omega)]
  rw [show Tracks.get [(1, td)] 1 = .ok td from rfl, ok_bind]
  have hd : mp3Part (mp3File front sound t) (mblk .mp3 sound front.flatten.length)
      (if (mblk .mp3 sound front.flatten.length).size < td.sig.length then (mblk .mp3 sound front.flatten.length).size else td.sig.length) 0 =
      .ok td.sig := by
    have hl : td.sig.length = min 256 sound.length := by rw [hsig]; simp
    rw [if_neg (by simp only [mblk]; omega), part_mblk (file := mp3File front sound t) (pre := front.flatten) (post := t.bytes) rfl (n := (td.sig.length : Int)) (k := td.sig.length) rfl (by omega), hl, hsig]
    rw [show sound.take (min 256 sound.length) = sound.take 256 by rw [List.take_eq_take_iff]; omega]
  dsimp only
  rw [hd, ok_bind, if_pos rfl]
  rfl

theorem mp3_extract {front : List Bytes} {sound : Bytes} {t : Tags} (h : Tagged front sound t) (hs : SoundIn front sound)
    {td : TrackData} (ho : td.matchOffset = (front.flatten.length : Nat)) (hl : td.matchLength = sound.length) :
    mp3Extract [(1, td)] (mp3File front sound t) = .ok (some sound) := by
  obtain ⟨v, hb⟩ := blocks_sound h hs
  unfold mp3Extract
  rw [hb, ok_bind, find_main]
  dsimp only
  rw [show Tracks.get [(1, td)] 1 = .ok td from rfl, ok_bind]
  have e : td.matchOffset - (mblk .mp3 sound front.flatten.length).start = 0 := by rw [ho]; simp only [mblk]; omega
  rw [e, if_neg (by omega), hl, part_mblk (file := mp3File front sound t) (pre := front.flatten) (post := t.bytes) rfl (n := (sound.length : Int)) (k := sound.length) rfl (by omega), ok_bind]
  simp

/-- `mp3_rebuild_sample` on the parts. -/
def rebuildPart (track : Bytes) (s : Mp3Out) (p : Mp3Type × Bytes) : Res Mp3Out :=
  if p.1 = .srs mSRSF ∨ p.1 = .srs mSRST ∨ p.1 = .srs mSRSP then
    if s.done then .ok s else .ok ⟨s.out ++ track, crc32 track s.crc, true⟩
  else .ok ⟨s.out ++ p.2, crc32 p.2 s.crc, s.done⟩

theorem rebuild_part {file track : Bytes} (s : Mp3Out) (ty : Mp3Type) (pre x post : Bytes)
    (hf : file = pre ++ (x ++ post)) : mp3RebuildBlock file track s (mblk ty x pre.length) = rebuildPart track s (ty, x) := by
  unfold mp3RebuildBlock rebuildPart
  by_cases hm : ty = .srs mSRSF ∨ ty = .srs mSRST ∨ ty = .srs mSRSP
  · rw [if_pos (by simp [Mp3Block.isSrs, mblk]; rcases hm with h | h | h <;> simp [h]), if_pos hm]
  · rw [if_neg (by simp [Mp3Block.isSrs, mblk]; simp only [not_or] at hm; exact ⟨⟨hm.1, hm.2.1⟩, hm.2.2⟩), if_neg hm,
      contents_mblk rfl hf]
    rfl

theorem rebuild_tags (l : List Bytes) : ∀ s : Mp3Out,
    l.foldl (fun s x => (⟨s.out ++ x, crc32 x s.crc, s.done⟩ : Mp3Out)) s = ⟨s.out ++ l.flatten, crc32 l.flatten s.crc, s.done⟩ := by
  induction l with
  | nil => intro s; cases s; simp [crc32]
  | cons x l ih =>
    intro s
    rw [List.foldl_cons, ih]
    simp [crc32_append]

theorem rebuildPart_tag {track : Bytes} (s : Mp3Out) (p : Mp3Type × Bytes) (h : IsTag p) :
    rebuildPart track s p = .ok ⟨s.out ++ p.2, crc32 p.2 s.crc, s.done⟩ := by
  unfold rebuildPart
  rw [if_neg (by rintro (h' | h' | h') <;> exact h.2 _ h')]

theorem mp3_rebuild {front : List Bytes} {f d : Bytes} {us : List (Bytes × Bytes)} {t : Tags} {v : Nat} {track : Bytes}
    (hu : us = [] ∨ ∃ u, us = [(mSRSP, u)])
    (hb : mp3Blocks (mp3File front (partBytes (srsParts ((mSRSF, f) :: (mSRST, d) :: us))) t) =
      .ok (place (front.map (fun f => (.id3, f)) ++ (srsParts ((mSRSF, f) :: (mSRST, d) :: us) ++ tailParts v t)) 0)) :
    mp3Rebuild (mp3File front (partBytes (srsParts ((mSRSF, f) :: (mSRST, d) :: us))) t) track =
      .ok (mp3File front track t, crc32 (mp3File front track t) 0) := by
  unfold mp3Rebuild
  rw [hb, ok_bind]
  have := foldlM_place (file := mp3File front (partBytes (srsParts ((mSRSF, f) :: (mSRST, d) :: us))) t)
    (g := rebuildPart track) (fun s ty pre x post hf => rebuild_part s ty pre x post hf)
    (front.map (fun f => (.id3, f)) ++ (srsParts ((mSRSF, f) :: (mSRST, d) :: us) ++ tailParts v t)) [] [] ⟨[], 0, false⟩
    (by rw [parts_file]; simp)
  simp only [List.length_nil] at this
  rw [this, List.foldlM_append, foldlM_tags (k := fun (s : Mp3Out) x => ⟨s.out ++ x, crc32 x s.crc, s.done⟩) _ _ (front_tags front) rebuildPart_tag, ok_bind, rebuild_tags,
    List.foldlM_append]
  have e : ∀ s : Mp3Out, s.done = false → (srsParts ((mSRSF, f) :: (mSRST, d) :: us)).foldlM (rebuildPart track) s =
      .ok ⟨s.out ++ track, crc32 track s.crc, true⟩ := by
    intro s hs
    have e1 : rebuildPart track s (.srs mSRSF, sblk mSRSF f) = .ok ⟨s.out ++ track, crc32 track s.crc, true⟩ := by
      unfold rebuildPart; rw [if_pos (by simp), hs]; rfl
    have e2 : ∀ (s : Mp3Out) m x, s.done = true → (m = mSRST ∨ m = mSRSP) → rebuildPart track s (.srs m, x) = .ok s := by
      intro s m x hs hm
      unfold rebuildPart; rw [if_pos (by rcases hm with rfl | rfl <;> simp), hs]; rfl
    rcases hu with rfl | ⟨u, rfl⟩
    · simp only [srsParts, List.map_cons, List.map_nil, List.foldlM_cons, List.foldlM_nil]
      rw [e1, ok_bind, e2 _ _ _ rfl (Or.inl rfl)]; rfl
    · simp only [srsParts, List.map_cons, List.map_nil, List.foldlM_cons, List.foldlM_nil]
      rw [e1, ok_bind, e2 _ _ _ rfl (Or.inl rfl), ok_bind, e2 _ _ _ rfl (Or.inr rfl)]; rfl
  rw [e _ rfl, ok_bind, foldlM_tags (k := fun (s : Mp3Out) x => ⟨s.out ++ x, crc32 x s.crc, s.done⟩) _ _ (tail_tags v t) rebuildPart_tag, ok_bind, rebuild_tags]
  have f1 := front_bytes front
  have f2 := tailParts_bytes v t
  unfold partBytes at f1 f2
  rw [f1, f2]
  simp [mp3File, crc32_append]

/-! ### From the file to the SRS and back -/

theorem mp3_find_same {td : TrackData} {main : Bytes} {tr : Tracks} (h : mp3Find [(1, td)] main = .ok tr) :
    ∃ o l, tr = [(1, { td with matchOffset := o, matchLength := l })] := by
  unfold mp3Find at h
  rw [bind_eq_ok] at h
  obtain ⟨bs, _, h⟩ := h
  cases hfind : bs.find? Mp3Block.isMain with
  | none =>
    rw [hfind] at h
    simp only [pure_eq_ok, Except.ok.injEq] at h
    exact ⟨td.matchOffset, td.matchLength, h.symm⟩
  | some b =>
    rw [hfind] at h
    dsimp only at h
    unfold mp3FindBlock at h
    split at h
    · simp at h
    rw [show Tracks.get [(1, td)] 1 = .ok td from rfl, ok_bind] at h
    dsimp only at h
    rw [bind_eq_ok] at h
    obtain ⟨d, _, h⟩ := h
    split at h
    · simp only [pure_eq_ok, Except.ok.injEq] at h
      exact ⟨_, _, h.symm⟩
    · split at h
      · rw [bind_eq_ok] at h
        obtain ⟨m, _, h⟩ := h
        cases m with
        | none =>
          simp only [pure_eq_ok, Except.ok.injEq] at h
          exact ⟨-1, td.matchLength, h.symm⟩
        | some k =>
          simp only [pure_eq_ok, Except.ok.injEq] at h
          exact ⟨_, _, h.symm⟩
      · simp only [pure_eq_ok, Except.ok.injEq] at h
        exact ⟨-1, td.matchLength, h.symm⟩

/-- What is known about an SRS made of an MP3 file. -/
theorem mp3_created {app name : Str} {front : List Bytes} {sound srs : Bytes} {t : Tags}
    {fp : Option (Nat × Bytes)} {bigFile : Bool} {check : Option Bytes}
    (ht : Tagged front sound t) (hs : SoundIn front sound)
    (h : srsMp3Create app name (mp3File front sound t) fp bigFile check = .ok srs) :
    ∃ f d us td, srs = mp3File front (partBytes (srsParts ((mSRSF, f) :: (mSRST, d) :: us))) t ∧
      8 + f.length < 2 ^ 24 ∧ 8 + d.length < 2 ^ 32 ∧
      fileParse f = .ok ⟨3, app, basename name, (mp3File front sound t).length, (crc32 (mp3File front sound t) 0).toNat⟩ ∧
      trackParse d = .ok td ∧ td.number = 1 ∧ td.sig = sound.take 256 ∧ td.dataLength = sound.length ∧
      ((us = [] ∧ ∀ du pr, fp = some (du, pr) → ¬ (du < 2 ^ 32 ∧ 16 + pr.length < 2 ^ 32)) ∨
        ∃ u, us = [(mSRSP, u)] ∧ 8 + u.length < 2 ^ 32 ∧ ∃ du pr, fp = some (du, pr) ∧
        u = le 4 du ++ (le 4 pr.length ++ pr) ∧ readFingerprint u = .ok (du, pr)) := by
  unfold srsMp3Create at h
  split at h
  · simp at h
  rw [mp3_profile ht hs, ok_bind] at h
  dsimp only at h
  rw [if_neg (by simp), bind_eq_ok] at h
  obtain ⟨tracks, htr, h⟩ := h
  have h4 := ht.four
  have hne : sound.take 256 ≠ [] := by
    intro h; have := congrArg List.length h; rw [List.length_take, List.length_nil] at this; omega
  have key : ∃ o l, tracks = [(1, { number := 1, dataLength := sound.length, sig := sound.take 256, matchOffset := o, matchLength := l })] := by
    cases check with
    | none =>
      simp only [Except.ok.injEq] at htr
      exact ⟨0, 0, htr.symm⟩
    | some main =>
      dsimp only at htr
      rw [bind_eq_ok] at htr
      obtain ⟨tr, hfind, htr⟩ := htr
      obtain ⟨o, l, rfl⟩ := mp3_find_same hfind
      split at htr
      · simp at htr
      · rw [pure_eq_ok, Except.ok.injEq] at htr
        refine ⟨o, l, ?_⟩
        rw [← htr, List.filter_cons_of_pos (by simpa using hne)]
        rfl
  obtain ⟨o, l, rfl⟩ := key
  obtain ⟨ins, hins, rfl⟩ := mp3_create ht hs h
  obtain ⟨f, d, us, rfl, hfl, hdl, hfp, hdp, hus⟩ := mp3_insert rfl rfl hins
  refine ⟨f, d, us, _, ?_, hfl, hdl, ?_, hdp, rfl, rfl, rfl, hus⟩
  · simp [srsParts, partBytes, List.map_map, Function.comp_def]
  · rw [hfp, Nat.mod_eq_of_lt (BitVec.isLt _)]

theorem mp3_reconstruct {front front' : List Bytes} {f d sound : Bytes} {us : List (Bytes × Bytes)} {t t' : Tags}
    {fd : FileData} {td : TrackData}
    (h : Tagged front (partBytes (srsParts ((mSRSF, f) :: (mSRST, d) :: us))) t)
    (hfl : 8 + f.length < 2 ^ 32) (hdl : 8 + d.length < 2 ^ 32) (hf : fileParse f = .ok fd)
    (hd : trackParse d = .ok td) (hnum : td.number = 1)
    (hu : us = [] ∨ ∃ u, us = [(mSRSP, u)] ∧ 8 + u.length < 2 ^ 32 ∧ ∃ p, readFingerprint u = .ok p)
    (hm : Tagged front' sound t') (hs : SoundIn front' sound) (hsig : td.sig = sound.take 256) (hlen : td.dataLength = sound.length) :
    srsMp3Reconstruct (mp3File front (partBytes (srsParts ((mSRSF, f) :: (mSRST, d) :: us))) t) (mp3File front' sound t') =
      .ok ⟨mp3File front sound t, fd.size, fd.crc, (crc32 (mp3File front sound t) 0).toNat == fd.crc⟩ := by
  obtain ⟨⟨p, hload⟩, v, hb⟩ := mp3_load h hfl hdl hf hd hnum hu
  unfold srsMp3Reconstruct
  rw [hload, ok_bind]
  dsimp only
  rw [mp3_find hm hs hsig, ok_bind, if_neg (by simp [mp3Unlocated])]
  rw [mp3_extract hm hs rfl (by simp [hlen]), ok_bind]
  dsimp only
  rw [if_neg (by simp [hlen]), if_neg (by simp)]
  rw [mp3_rebuild (by rcases hu with h | ⟨u, h, _⟩; exact Or.inl h; exact Or.inr ⟨u, h⟩) hb, ok_bind]
  rfl

/-- C39, full statement: an MP3 file is rebuilt from its SRS and any file with the same sound. -/
def mp3_rebuilt : Prop :=
  ∀ (app name : Str) (front front' : List Bytes) (sound srs : Bytes) (t t' : Tags) (fp : Option (Nat × Bytes)) (bigFile : Bool),
    IsSound sound → Tagged front sound t → Tagged front' sound t' →
    srsMp3Create app name (mp3File front sound t) fp bigFile none = .ok srs →
    ∃ r, srsMp3Reconstruct srs (mp3File front' sound t') = .ok r ∧ r.good = true ∧ r.file = mp3File front sound t

/-- C39: an MP3 file with any ID3v2 tags in front and APE, Lyrics3, Lyrics3v2 and ID3v1 tags
behind is rebuilt byte for byte, and reported as good, from its SRS and any MP3 file with the
same sound, whatever tags that one has.  The SRS has the tags of the file around other bytes
`ins`; they must not look like tags themselves (`Tagged front ins t`). -/
theorem mp3_rebuilt_partial {app name : Str} {front front' : List Bytes} {sound srs : Bytes} {t t' : Tags}
    {fp : Option (Nat × Bytes)} {bigFile : Bool} {check : Option Bytes}
    (hs : SoundIn front sound) (hs' : SoundIn front' sound) (ht : Tagged front sound t) (hm : Tagged front' sound t')
    (h : srsMp3Create app name (mp3File front sound t) fp bigFile check = .ok srs) :
    ∃ ins, srs = mp3File front ins t ∧ (Tagged front ins t →
      srsMp3Reconstruct srs (mp3File front' sound t') = .ok ⟨mp3File front sound t, (mp3File front sound t).length,
        (crc32 (mp3File front sound t) 0).toNat, true⟩) := by
  obtain ⟨f, d, us, td, rfl, hfl, hdl, hf, hd, hnum, hsig, hlen, hu⟩ := mp3_created ht hs h
  replace hfl : 8 + f.length < 2 ^ 32 := by omega
  refine ⟨_, rfl, fun hsrs => ?_⟩
  rw [mp3_reconstruct hsrs hfl hdl hf hd hnum
    (hu.imp And.left (fun ⟨u, h1, h2, du, pr, _, _, h3⟩ => ⟨u, h1, h2, _, h3⟩)) hm hs' hsig hlen]
  simp

/-- C39: what is reported as good has the CRC recorded in the SRS, for any SRS and main file. -/
theorem mp3_result_sound {srs main : Bytes} {r : SrsResult} (h : srsMp3Reconstruct srs main = .ok r) :
    (r.good = true ↔ (crc32 r.file 0).toNat = r.crc) ∧
    ∃ f tracks p, mp3LoadSrs srs = .ok (f, tracks, p) ∧ f.crc = r.crc ∧ f.size = r.size := by
  unfold srsMp3Reconstruct at h
  rw [bind_eq_ok] at h
  obtain ⟨⟨f, tracks, p⟩, hl, h⟩ := h
  simp only [bind_eq_ok] at h
  obtain ⟨tr, htr, h⟩ := h
  split at h
  · simp at h
  simp only [bind_eq_ok] at h
  obtain ⟨data, hdata, h⟩ := h
  cases data with
  | none =>
    simp only at h
    split at h <;> simp at h
  | some d =>
    simp only at h
    split at h
    · simp at h
    split at h
    · simp at h
    simp only [bind_eq_ok] at h
    obtain ⟨⟨out, crc⟩, hreb, h⟩ := h
    simp only [pure_eq_ok, Except.ok.injEq] at h
    subst h
    refine ⟨?_, f, tracks, p, hl, rfl, rfl⟩
    unfold mp3Rebuild at hreb
    rw [bind_eq_ok] at hreb
    obtain ⟨bs, _, hreb⟩ := hreb
    rw [bind_eq_ok] at hreb
    obtain ⟨s, hs, hreb⟩ := hreb
    simp only [pure_eq_ok, Except.ok.injEq, Prod.mk.injEq] at hreb
    obtain ⟨rfl, rfl⟩ := hreb
    have hinv : ∀ (l : List Mp3Block) (s0 s : Mp3Out), s0.crc = crc32 s0.out 0 →
        l.foldlM (mp3RebuildBlock srs d) s0 = .ok s → s.crc = crc32 s.out 0 := by
      intro l
      induction l with
      | nil => intro s0 s h0 h; simp only [List.foldlM_nil, pure_eq_ok, Except.ok.injEq] at h; rw [← h]; exact h0
      | cons b l ih =>
        intro s0 s h0 h
        rw [List.foldlM_cons, bind_eq_ok] at h
        obtain ⟨s1, h1, h⟩ := h
        refine ih s1 s ?_ h
        unfold mp3RebuildBlock at h1
        split at h1
        · split at h1
          · simp only [Except.ok.injEq] at h1; rw [← h1]; exact h0
          · simp only [Except.ok.injEq] at h1
            rw [← h1]; simp [crc32_append, h0]
        · rw [bind_eq_ok] at h1
          obtain ⟨x, _, h1⟩ := h1
          simp only [pure_eq_ok, Except.ok.injEq] at h1
          rw [← h1]; simp [crc32_append, h0]
    have := hinv bs ⟨[], 0, false⟩ s rfl hs
    simp [this]

end Rescene.Props
