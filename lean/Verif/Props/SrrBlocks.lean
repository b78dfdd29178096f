import Verif.Lemmas.ReadBuilt
import Verif.Lemmas.Names
/-
C01, C02, C03: the SRR blocks that pyReScene writes are read back unchanged.

`readBlock .srr data st` is one step of `RarReader` in SRR mode; `mkStored`,
`mkSrrHeader`, `mkRarFile`, `mkOso`, `mkPadding` are the block constructors
followed by `block_bytes()`.  The theorems quantify over everything before (`pre`)
and after (`rest`) the block in the file.
-/
namespace Rescene.Props
open Spec

/-- C01: which stored-file blocks can be built.  Accepted exactly for a legal,
encodable name whose header fits in 16 bits and a size that fits in 32 bits. -/
theorem stored_accepted_iff (name : Str) (size : Int) :
    (∃ raw, mkStored name size = .ok raw) ↔
      LegalName name ∧ Encodable name ∧ 7 + 4 + 2 + utf8Len name ≤ 0xFFFF ∧
        0 ≤ size ∧ size ≤ 0xFFFFFFFF := by
  simp only [mkStored_ok_iff]
  constructor
  · rintro ⟨raw, n, hn, hne, hg, h0, h1, hl, _⟩
    have := utf8Enc_length hn
    exact ⟨⟨hne, isGoodSrr_iff.mp hg⟩, utf8Enc_ok_iff.mp ⟨n, hn⟩, by omega, h0, by omega⟩
  · rintro ⟨⟨hne, hg⟩, he, hl, h0, h1⟩
    obtain ⟨n, hn⟩ := utf8Enc_ok_iff.mpr he
    have := utf8Enc_length hn
    exact ⟨_, n, hn, hne, isGoodSrr_iff.mpr hg, h0, by omega, by omega, rfl⟩

/-- C01: the header has exactly `header_size` bytes. -/
theorem stored_length {name : Str} {size : Int} {raw : Bytes} (h : mkStored name size = .ok raw) :
    raw.length = 13 + utf8Len name := by
  rw [mkStored_ok_iff] at h
  obtain ⟨n, hn, _, _, _, _, _, rfl⟩ := h
  simp [utf8Enc_length hn]; omega

/-- C01: round trip.  Read at any position (but the first) of an SRR, the block gives
back name and size, its position and its bytes; the file data directly follows and the
reader continues after it. -/
theorem stored_round_trip {name : Str} {size : Int} {raw : Bytes} (h : mkStored name size = .ok raw)
    (pre body rest : Bytes) (hpre : pre ≠ []) (hbody : (body.length : Int) = size)
    (st : RState) (hpos : st.pos = pre.length) :
    ∃ b st', readBlock .srr (pre ++ (raw ++ (body ++ rest))) st = .ok (some (b, st')) ∧
      b.kind = .stored body.length name ∧ b.pos = pre.length ∧ b.hsize = raw.length ∧ b.raw = raw ∧
      b.addSize = body.length ∧
      readAt (pre ++ (raw ++ (body ++ rest))) (b.pos + b.hsize) body.length = body ∧
      st'.pos = (pre ++ (raw ++ body)).length := by
  have hs : size.toNat = body.length := by omega
  refine ⟨_, _, read_stored h pre (body ++ rest) st hpre hpos, ?_, rfl, rfl, rfl, hs, ?_, ?_⟩
  · simp [hs]
  · have := readAt_append (pre ++ raw) body rest rfl rfl
    simpa [List.append_assoc] using this
  · simp [hs]; omega

/-- A concrete stored file: 3 bytes named `a/é.nfo`. -/
example : ∃ raw, mkStored (str "a/é.nfo") 3 = .ok raw ∧ raw.length = 21 ∧
    ∃ b st', readBlock .srr ([1, 2] ++ (raw ++ ([7, 8, 9] ++ [5]))) ⟨2, false, none⟩ = .ok (some (b, st')) ∧
      b.kind = .stored 3 (str "a/é.nfo") ∧ st'.pos = 26 := by
  have h : mkStored (str "a/é.nfo") 3 = .ok [0x6A, 0x6A, 0x6A, 0, 0x80, 21, 0, 3, 0, 0, 0, 8, 0,
    0x61, 0x2F, 0xC3, 0xA9, 0x2E, 0x6E, 0x66, 0x6F] := by decide
  obtain ⟨b, st', h1, h2, _, _, _, _, _, h3⟩ :=
    stored_round_trip h [1, 2] [7, 8, 9] [5] (by simp) (by simp) ⟨2, false, none⟩ rfl
  exact ⟨_, h, rfl, b, st', h1, h2, h3⟩

/-- C01: the rejections are there: an illegal character, an empty name, a size of 2^32. -/
example : mkStored (str "a\\b") 3 = .error .attrError ∧ mkStored [] 3 = .error .attrError ∧
    mkStored (str "a") 0x100000000 = .error .structError ∧ mkStored (str "a") (-1) = .error .attrError := by
  decide

/-- C02: which application names can be written. -/
theorem srrHeader_accepted_iff (app : Str) :
    (∃ raw, mkSrrHeader app = .ok raw) ↔ Encodable app ∧ utf8Len app ≤ 0xFFF6 := by
  simp only [mkSrrHeader_ok_iff]
  constructor
  · rintro ⟨raw, n, hn, hl, _⟩
    have := utf8Enc_length hn
    exact ⟨utf8Enc_ok_iff.mp ⟨n, hn⟩, by omega⟩
  · rintro ⟨he, hl⟩
    obtain ⟨n, hn⟩ := utf8Enc_ok_iff.mpr he
    have := utf8Enc_length hn
    exact ⟨_, n, hn, by omega, rfl⟩

/-- C02: an encodable name that is too long is a struct error. -/
theorem srrHeader_too_long (app : Str) (h : Encodable app) (hl : 0xFFF6 < utf8Len app) :
    mkSrrHeader app = .error .structError := by
  obtain ⟨n, hn⟩ := utf8Enc_ok_iff.mpr h
  have := utf8Enc_length hn
  have hne : app.length ≠ 0 := by
    intro h0
    have : app = [] := List.length_eq_zero_iff.mp h0
    subst this
    simp [utf8Len] at hl
  simp only [mkSrrHeader, hn, ok_bind, if_pos hne, writeHeader]
  rw [pack_ok (by omega), pack_ok (by omega), pack_ok (by omega)]
  have : pack 2 (7 + 2 + n.length) = .error .structError := pack_eq_error.mpr ⟨by omega, rfl⟩
  simp [this]

/-- C02: round trip of the header block at the start of an SRR: name, flag and length. -/
theorem srrHeader_round_trip {app : Str} {raw : Bytes} (h : mkSrrHeader app = .ok raw) (rest : Bytes) :
    ∃ b st', readBlock .srr (raw ++ rest) RState.init = .ok (some (b, st')) ∧
      b.kind = .srrHeader app ∧ b.raw = raw ∧ b.pos = 0 ∧ b.hsize = raw.length ∧
      raw.length = (if app = [] then 7 else 9 + utf8Len app) ∧
      (hasFlag b.flags 1 = true ↔ app ≠ []) ∧ st'.pos = raw.length := by
  refine ⟨_, _, read_srrHeader h [] rest RState.init rfl, rfl, rfl, rfl, rfl, ?_, ?_, by simp⟩
  · rw [mkSrrHeader_ok_iff] at h
    obtain ⟨a, ha, _, rfl⟩ := h
    have := utf8Enc_length ha
    split <;> simp; omega
  · by_cases happ : app = [] <;> simp [happ, hasFlag]

example : ∃ raw, mkSrrHeader (str "pyReScene") = .ok raw ∧ raw.length = 18 ∧
    mkSrrHeader [] = .ok [0x69, 0x69, 0x69, 0, 0, 7, 0] := ⟨_, rfl, rfl, rfl⟩

/-- C03: which names of RAR volumes can be written. -/
theorem rarFile_accepted_iff (name : Str) :
    (∃ raw, mkRarFile name = .ok raw) ↔ name ≠ [] ∧ Encodable name ∧ utf8Len name ≤ 0xFFF6 := by
  simp only [mkRarFile_ok_iff]
  constructor
  · rintro ⟨raw, n, hn, hne, hl, _⟩
    have := utf8Enc_length hn
    exact ⟨hne, utf8Enc_ok_iff.mp ⟨n, hn⟩, by omega⟩
  · rintro ⟨hne, he, hl⟩
    obtain ⟨n, hn⟩ := utf8Enc_ok_iff.mpr he
    have := utf8Enc_length hn
    exact ⟨_, n, hn, hne, by omega, rfl⟩

/-- C03: round trip of the block that marks a RAR volume. -/
theorem rarFile_round_trip {name : Str} {raw : Bytes} (h : mkRarFile name = .ok raw)
    (pre rest : Bytes) (st : RState) (hpos : st.pos = pre.length) :
    ∃ b st', readBlock .srr (pre ++ (raw ++ rest)) st = .ok (some (b, st')) ∧
      b.kind = .rarFile name ∧ b.raw = raw ∧ b.pos = pre.length ∧ b.hsize = raw.length ∧
      st'.pos = (pre ++ raw).length := by
  refine ⟨_, _, read_rarFile h pre rest st hpos, rfl, rfl, rfl, rfl, by simp⟩

example : ∃ raw, mkRarFile (str "cd1/x.r00") = .ok raw ∧ raw.length = 18 := ⟨_, rfl, rfl⟩

/-- C03: which OSO hash blocks can be written. -/
theorem oso_accepted_iff (size : Nat) (name : Str) (hash : Nat) :
    (∃ raw, mkOso size name hash = .ok raw) ↔
      Encodable name ∧ utf8Len name ≤ 0xFFE6 ∧ size < 2 ^ 64 ∧ hash < 2 ^ 64 := by
  simp only [mkOso_ok_iff]
  constructor
  · rintro ⟨raw, n, hn, h1, h2, hl, _⟩
    have := utf8Enc_length hn
    exact ⟨utf8Enc_ok_iff.mp ⟨n, hn⟩, by omega, h1, h2⟩
  · rintro ⟨he, hl, h1, h2⟩
    obtain ⟨n, hn⟩ := utf8Enc_ok_iff.mpr he
    have := utf8Enc_length hn
    exact ⟨_, n, hn, h1, h2, by omega, rfl⟩

/-- C03: round trip of the OSO hash block. -/
theorem oso_round_trip {size : Nat} {name : Str} {hash : Nat} {raw : Bytes}
    (h : mkOso size name hash = .ok raw) (pre rest : Bytes) (st : RState) (hpos : st.pos = pre.length) :
    ∃ b st', readBlock .srr (pre ++ (raw ++ rest)) st = .ok (some (b, st')) ∧
      b.kind = .oso size hash name ∧ b.raw = raw ∧ b.pos = pre.length ∧ b.hsize = raw.length ∧
      st'.pos = (pre ++ raw).length := by
  refine ⟨_, _, read_oso h pre rest st hpos, rfl, rfl, rfl, rfl, by simp⟩

example : ∃ raw, mkOso 0x123456789 (str "x.avi") 0x18379ac9af039390 = .ok raw ∧ raw.length = 30 := ⟨_, rfl, rfl⟩

/-- C03: round trip of the padding block: the padding bytes are the block bytes after
the 11 byte header, and every padding below 4 GiB can be written. -/
theorem padding_round_trip (padding : Bytes) (hl : padding.length < 2 ^ 32)
    (pre rest : Bytes) (st : RState) (hpos : st.pos = pre.length) :
    ∃ raw b st', mkPadding padding = .ok raw ∧
      readBlock .srr (pre ++ (raw ++ rest)) st = .ok (some (b, st')) ∧
      b.kind = .padding padding.length ∧ b.raw.drop b.hsize = padding ∧ b.raw = raw ∧
      b.pos = pre.length ∧ b.hsize = 11 ∧ st'.pos = (pre ++ raw).length := by
  have h := mkPadding_ok_iff.mpr ⟨hl, rfl⟩
  refine ⟨_, _, _, h, read_padding h pre rest st hpos, rfl, ?_, rfl, rfl, rfl, by simp⟩
  rw [← List.append_assoc]
  exact List.drop_left' (by simp)

/-- C03: larger padding is refused. -/
theorem padding_too_long (padding : Bytes) (hl : 2 ^ 32 ≤ padding.length) :
    mkPadding padding = .error .structError := by
  unfold mkPadding
  rw [writeHeader_ok_iff.mpr ⟨by omega, by omega, by omega, by omega, rfl⟩]
  have : pack 4 padding.length = .error .structError := pack_eq_error.mpr ⟨by omega, rfl⟩
  simp [this]

example : mkPadding [1, 2, 3] = .ok [0x6C, 0x6C, 0x6C, 0, 0x80, 11, 0, 3, 0, 0, 0, 1, 2, 3] := by decide

end Rescene.Props
