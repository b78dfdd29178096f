import Verif.Lemmas.Reader
namespace Rescene

/-- The 7 header bytes. -/
def rawHdr (crc btype flags hsize : Nat) : Bytes :=
  le 2 crc ++ (le 1 btype ++ (le 2 flags ++ le 2 hsize))

@[simp] theorem rawHdr_length (a b c d : Nat) : (rawHdr a b c d).length = 7 := by simp [rawHdr]

theorem writeHeader_ok_iff {crc btype flags hsize : Nat} {b : Bytes} :
    writeHeader crc btype flags hsize = .ok b ↔
      crc < 0x10000 ∧ btype < 0x100 ∧ flags < 0x10000 ∧ hsize < 0x10000 ∧
        b = rawHdr crc btype flags hsize := by
  unfold writeHeader rawHdr
  simp only [bind_eq_ok, pack_eq_ok, pure_eq_ok, Except.ok.injEq]
  constructor
  · rintro ⟨_, ⟨h1, rfl⟩, _, ⟨h2, rfl⟩, _, ⟨h3, rfl⟩, _, ⟨h4, rfl⟩, rfl⟩
    exact ⟨h1, h2, h3, h4, rfl⟩
  · rintro ⟨h1, h2, h3, h4, rfl⟩
    exact ⟨_, ⟨h1, rfl⟩, _, ⟨h2, rfl⟩, _, ⟨h3, rfl⟩, _, ⟨h4, rfl⟩, rfl⟩

theorem rawHdr_crc {crc btype flags hsize : Nat} {x : Bytes} (h : crc < 0x10000) :
    unpackAt 2 (rawHdr crc btype flags hsize ++ x) 0 = .ok crc := by
  simp only [rawHdr, List.append_assoc]; exact unpackAt_here h

theorem rawHdr_type {crc btype flags hsize : Nat} {x : Bytes} (h : btype < 0x100) :
    unpackAt 1 (rawHdr crc btype flags hsize ++ x) 2 = .ok btype := by
  simp only [rawHdr, List.append_assoc]
  rw [unpackAt_skip (by simp)]
  simpa using unpackAt_here h

theorem rawHdr_flags {crc btype flags hsize : Nat} {x : Bytes} (h : flags < 0x10000) :
    unpackAt 2 (rawHdr crc btype flags hsize ++ x) 3 = .ok flags := by
  simp only [rawHdr, List.append_assoc]
  rw [unpackAt_skip (by simp), unpackAt_skip (by simp)]
  simpa using unpackAt_here h

theorem rawHdr_hsize {crc btype flags hsize : Nat} {x : Bytes} (h : hsize < 0x10000) :
    unpackAt 2 (rawHdr crc btype flags hsize ++ x) 5 = .ok hsize := by
  simp only [rawHdr, List.append_assoc]
  rw [unpackAt_skip (by simp), unpackAt_skip (by simp), unpackAt_skip (by simp)]
  simpa using unpackAt_here h

theorem rawHdr_skip {crc btype flags hsize k off : Nat} {x : Bytes} (h : 7 ≤ off) :
    unpackAt k (rawHdr crc btype flags hsize ++ x) off = unpackAt k x (off - 7) := by
  rw [unpackAt_skip (by simpa using h)]; simp

theorem packFileName_ok_iff {name : Str} {b : Bytes} :
    packFileName name = .ok b ↔
      ∃ n, utf8Enc name = .ok n ∧ n.length < 0x10000 ∧ b = le 2 n.length ++ n := by
  unfold packFileName
  simp only [bind_eq_ok, pack_eq_ok, pure_eq_ok, Except.ok.injEq]
  constructor
  · rintro ⟨n, h1, _, ⟨h2, rfl⟩, rfl⟩; exact ⟨n, h1, h2, rfl⟩
  · rintro ⟨n, h1, h2, rfl⟩; exact ⟨n, h1, _, ⟨h2, rfl⟩, rfl⟩

/-- A packed file name that ends a buffer is read back. -/
theorem unpackFileName_packed {name : Str} {n pre : Bytes} {p : Nat} (hp : pre.length = p)
    (hn : utf8Enc name = .ok n) (hl : n.length < 0x10000) :
    unpackFileName (pre ++ (le 2 n.length ++ n)) p = .ok name := by
  subst hp
  unfold unpackFileName
  rw [unpackAt_skip (by omega)]
  simp only [Nat.sub_self, unpackAt_here (show n.length < 256 ^ 2 from hl), ok_bind]
  rw [slice_skip (by omega) (by omega), slice_skip (by simp) (by omega)]
  rw [slice_zero_self' ]
  exact utf8Dec_enc hn
where
  slice_zero_self' : slice n (pre.length + 2 - pre.length - (le 2 n.length).length)
      (pre.length + 2 + n.length - pre.length - (le 2 n.length).length) = n := by
    have h1 : pre.length + 2 - pre.length - (le 2 n.length).length = 0 := by simp
    have h2 : pre.length + 2 + n.length - pre.length - (le 2 n.length).length = n.length := by
      simp; omega
    rw [h1, h2, slice_zero_self rfl]

/-! ### The exact conditions and results of the builders -/

theorem mkStored_ok_iff {name : Str} {size : Int} {raw : Bytes} :
    mkStored name size = .ok raw ↔
      ∃ n, utf8Enc name = .ok n ∧ name ≠ [] ∧ isGoodSrr name = true ∧ 0 ≤ size ∧
        size < 0x100000000 ∧ 13 + n.length < 0x10000 ∧
        raw = rawHdr 0x6A6A 0x6A 0x8000 (13 + n.length) ++
          (le 4 size.toNat ++ (le 2 n.length ++ n)) := by
  unfold mkStored storedRaw
  simp only [bind_eq_ok, packFileName_ok_iff]
  constructor
  · rintro ⟨_, ⟨n, hn, hl, rfl⟩, h⟩
    split at h
    · simp at h
    · split at h
      · simp at h
      · split at h
        · simp at h
        · rename_i hg hs hc
          simp only [bind_eq_ok, writeHeader_ok_iff, pack_eq_ok, pure_eq_ok, Except.ok.injEq] at h
          obtain ⟨_, ⟨_, _, _, hh, rfl⟩, _, ⟨h4, rfl⟩, rfl⟩ := h
          simp only [List.length_append, le_length, not_or] at hc hh
          have e : 7 + 4 + (le 2 n.length ++ n).length = 13 + n.length := by simp; omega
          refine ⟨n, hn, hc.1, by simpa using hg, by omega, by omega, by omega, ?_⟩
          rw [e]
  · rintro ⟨n, hn, hne, hg, h0, h1, hl, rfl⟩
    refine ⟨_, ⟨n, hn, by omega, rfl⟩, ?_⟩
    have e : 7 + 4 + (le 2 n.length ++ n).length = 13 + n.length := by simp; omega
    rw [if_neg (by simp [hg]), if_neg (by omega), e, if_neg (by simp [hne]; omega)]
    rw [bind_eq_ok]
    refine ⟨_, writeHeader_ok_iff.mpr ⟨by omega, by omega, by omega, by omega, rfl⟩, ?_⟩
    rw [pack_ok (by omega)]
    rfl

theorem mkSrrHeader_ok_iff {app : Str} {raw : Bytes} :
    mkSrrHeader app = .ok raw ↔
      ∃ a, utf8Enc app = .ok a ∧ 9 + a.length < 0x10000 ∧
        raw = if app = [] then rawHdr 0x6969 0x69 0 7
          else rawHdr 0x6969 0x69 1 (9 + a.length) ++ (le 2 a.length ++ a) := by
  unfold mkSrrHeader
  simp only [bind_eq_ok]
  constructor
  · rintro ⟨a, ha, h⟩
    refine ⟨a, ha, ?_⟩
    split at h
    · rename_i hne
      simp only [bind_eq_ok, writeHeader_ok_iff, pack_eq_ok, pure_eq_ok, Except.ok.injEq] at h
      obtain ⟨_, ⟨_, _, _, hh, rfl⟩, _, ⟨h4, rfl⟩, rfl⟩ := h
      have : app ≠ [] := by rintro rfl; simp at hne
      simp only [if_neg this]
      exact ⟨by omega, by simp⟩
    · rename_i hne
      have : app = [] := by simpa using hne
      subst this
      simp [utf8Enc] at ha
      subst ha
      rw [writeHeader_ok_iff] at h
      simp [h]
  · rintro ⟨a, ha, hl, rfl⟩
    refine ⟨a, ha, ?_⟩
    split
    · rename_i hne
      have : app ≠ [] := by rintro rfl; simp at hne
      rw [if_neg this, bind_eq_ok]
      refine ⟨_, writeHeader_ok_iff.mpr ⟨by omega, by omega, by omega, by omega, rfl⟩, ?_⟩
      rw [pack_ok (by omega)]
      simp
    · rename_i hne
      have : app = [] := by simpa using hne
      rw [if_pos this, writeHeader_ok_iff]
      simp

theorem mkRarFile_ok_iff {name : Str} {raw : Bytes} :
    mkRarFile name = .ok raw ↔
      ∃ n, utf8Enc name = .ok n ∧ name ≠ [] ∧ 9 + n.length < 0x10000 ∧
        raw = rawHdr 0x7171 0x71 1 (9 + n.length) ++ (le 2 n.length ++ n) := by
  unfold mkRarFile
  split
  · rename_i h; subst h; simp
  · rename_i hne
    simp only [bind_eq_ok, packFileName_ok_iff, writeHeader_ok_iff, pure_eq_ok, Except.ok.injEq]
    constructor
    · rintro ⟨_, ⟨n, hn, hl, rfl⟩, _, ⟨_, _, _, hh, rfl⟩, rfl⟩
      simp only [List.length_append, le_length] at hh
      refine ⟨n, hn, hne, by omega, ?_⟩
      simp; congr 1; omega
    · rintro ⟨n, hn, _, hl, rfl⟩
      refine ⟨_, ⟨n, hn, by omega, rfl⟩, _, ⟨by omega, by omega, by omega, ?_, rfl⟩, ?_⟩
      · simp; omega
      · simp; congr 1; omega

theorem mkOso_ok_iff {size : Nat} {name : Str} {hash : Nat} {raw : Bytes} :
    mkOso size name hash = .ok raw ↔
      ∃ n, utf8Enc name = .ok n ∧ size < 256 ^ 8 ∧ hash < 256 ^ 8 ∧ 25 + n.length < 0x10000 ∧
        raw = rawHdr 0x6B6B 0x6B 0 (25 + n.length) ++
          (le 8 size ++ (le 8 hash ++ (le 2 n.length ++ n))) := by
  unfold mkOso
  simp only [bind_eq_ok, packFileName_ok_iff, writeHeader_ok_iff, pack_eq_ok, pure_eq_ok, Except.ok.injEq]
  constructor
  · rintro ⟨_, ⟨n, hn, hl, rfl⟩, _, ⟨_, _, _, hh, rfl⟩, _, ⟨h1, rfl⟩, _, ⟨h2, rfl⟩, rfl⟩
    simp only [List.length_append, le_length] at hh
    refine ⟨n, hn, h1, h2, by omega, ?_⟩
    simp; congr 1; omega
  · rintro ⟨n, hn, h1, h2, hl, rfl⟩
    refine ⟨_, ⟨n, hn, by omega, rfl⟩, _, ⟨by omega, by omega, by omega, ?_, rfl⟩, _, ⟨h1, rfl⟩, _, ⟨h2, rfl⟩, ?_⟩
    · simp; omega
    · simp; congr 1; omega

theorem mkPadding_ok_iff {padding raw : Bytes} :
    mkPadding padding = .ok raw ↔
      padding.length < 256 ^ 4 ∧
        raw = rawHdr 0x6C6C 0x6C 0x8000 11 ++ (le 4 padding.length ++ padding) := by
  unfold mkPadding
  simp only [bind_eq_ok, writeHeader_ok_iff, pack_eq_ok, pure_eq_ok, Except.ok.injEq]
  constructor
  · rintro ⟨_, ⟨_, _, _, hh, rfl⟩, _, ⟨h1, rfl⟩, rfl⟩
    exact ⟨h1, rfl⟩
  · rintro ⟨h1, rfl⟩
    exact ⟨_, ⟨by omega, by omega, by omega, by omega, rfl⟩, _, ⟨h1, rfl⟩, rfl⟩

end Rescene
