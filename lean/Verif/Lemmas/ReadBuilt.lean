import Verif.Lemmas.Build
namespace Rescene

theorem isRecoveryHdr_of_ne {t s : Nat} {b : Bytes} (h1 : t ≠ 0x78) (h2 : t ≠ 0x7A) :
    isRecoveryHdr t s b = .ok false := by
  unfold isRecoveryHdr
  rw [if_neg h1, if_neg (fun h => h2 h.1)]

/-- The stored file block and the data after it are read back. -/
theorem read_stored {name : Str} {size : Int} {raw : Bytes} (hb : mkStored name size = .ok raw)
    (pre rest : Bytes) (st : RState) (hpre : pre ≠ []) (hpos : st.pos = pre.length) :
    readBlock .srr (pre ++ (raw ++ rest)) st =
      .ok (some (⟨pre.length, 0x6A6A, 0x6A, 0x8000, raw.length, size.toNat, raw, .stored size.toNat name⟩,
        ⟨pre.length + raw.length + size.toNat, st.endSeen, st.recRemoved⟩)) := by
  rw [mkStored_ok_iff] at hb
  obtain ⟨n, hn, hne, hg, h0, h1, hl, hraw⟩ := hb
  have hlen : raw.length = 13 + n.length := by rw [hraw]; simp; omega
  have hs32 : size.toNat < 256 ^ 4 := by omega
  have ht : unpackAt 1 raw 2 = .ok 0x6A := by rw [hraw]; exact rawHdr_type (by omega)
  have hf : unpackAt 2 raw 3 = .ok 0x8000 := by rw [hraw]; exact rawHdr_flags (by omega)
  have hs : unpackAt 2 raw 5 = .ok raw.length := by rw [hlen, hraw]; exact rawHdr_hsize hl
  have hc : unpackAt 2 raw 0 = .ok 0x6A6A := by rw [hraw]; exact rawHdr_crc (by omega)
  have ha : unpackAt 4 raw 7 = .ok size.toNat := by
    rw [hraw, rawHdr_skip (by omega)]; exact unpackAt_here hs32
  have hname : unpackFileName raw 11 = .ok name := by
    rw [hraw, ← List.append_assoc]
    exact unpackFileName_packed (by simp) hn (by omega)
  have hplen : pre.length ≠ 0 := by cases pre <;> simp_all
  have hmk : mkBlock raw pre.length = .ok ⟨pre.length, 0x6A6A, 0x6A, 0x8000, raw.length, size.toNat,
      raw, .stored size.toNat name⟩ := by
    rw [mkBlock_ok_iff]
    refine ⟨hc, ht, hf, hs, fun h => hplen h.2, rfl, rfl, size.toNat, ?_, ?_⟩
    · rw [if_pos (show hasFlag 0x8000 0x8000 = true by decide), ha]
    · simp [mkKind, ha, hname]
  rw [readBlock_hdr hpos (by omega) ht hf hs (by simp), readBody_at (by omega)]
  rw [if_pos (Or.inl (by decide)), ha]
  simp [isRecoveryHdr_of_ne, recStep, hmk]

/-- The SRR header block is read back (it is the first block of a file). -/
theorem read_srrHeader {app : Str} {raw : Bytes} (hb : mkSrrHeader app = .ok raw)
    (pre rest : Bytes) (st : RState) (hpos : st.pos = pre.length) :
    readBlock .srr (pre ++ (raw ++ rest)) st =
      .ok (some (⟨pre.length, 0x6969, 0x69, if app = [] then 0 else 1, raw.length, 0, raw, .srrHeader app⟩,
        ⟨pre.length + raw.length, st.endSeen, st.recRemoved⟩)) := by
  rw [mkSrrHeader_ok_iff] at hb
  obtain ⟨a, ha, hl, hraw⟩ := hb
  by_cases happ : app = []
  · subst happ
    rw [if_pos rfl] at hraw
    subst hraw
    have hr : readAt (pre ++ (rawHdr 0x6969 0x69 0 7 ++ rest)) pre.length 7 = rawHdr 0x6969 0x69 0 7 := by
      rw [readAt_append_drop, List.take_append_of_le_length (by simp), List.take_of_length_le (by simp)]
    have ht : unpackAt 1 (rawHdr 0x6969 0x69 0 7) 2 = .ok 0x69 := by decide
    have hf : unpackAt 2 (rawHdr 0x6969 0x69 0 7) 3 = .ok 0 := by decide
    have hs : unpackAt 2 (rawHdr 0x6969 0x69 0 7) 5 = .ok 7 := by decide
    have hc : unpackAt 2 (rawHdr 0x6969 0x69 0 7) 0 = .ok 0x6969 := by decide
    unfold readBlock
    rw [hpos, if_neg (by simp), if_neg (by simp), hr]
    simp only [ht, hf, hs, ok_bind]
    rw [if_neg (by simp), if_neg (by simp)]
    simp only [if_true]
    rw [(mkBlock_ok_iff (b := ⟨pre.length, 0x6969, 0x69, 0, 7, 0, rawHdr 0x6969 0x69 0 7, .srrHeader []⟩)).mpr]
    · simp
    · exact ⟨hc, ht, hf, hs, by simp, rfl, rfl, 0, by simp [hasFlag], by simp [mkKind, parseSrrHeader, hasFlag]⟩
  · rw [if_neg happ] at hraw
    have hlen : raw.length = 9 + a.length := by rw [hraw]; simp; omega
    have ht : unpackAt 1 raw 2 = .ok 0x69 := by rw [hraw]; exact rawHdr_type (by omega)
    have hf : unpackAt 2 raw 3 = .ok 1 := by rw [hraw]; exact rawHdr_flags (by omega)
    have hs : unpackAt 2 raw 5 = .ok raw.length := by rw [hlen, hraw]; exact rawHdr_hsize hl
    have hc : unpackAt 2 raw 0 = .ok 0x6969 := by rw [hraw]; exact rawHdr_crc (by omega)
    have hname : unpackFileName raw 7 = .ok app := by
      rw [hraw]; exact unpackFileName_packed (by simp) ha (by omega)
    have hpk : parseSrrHeader raw 1 = .ok (.srrHeader app) := by
      unfold unpackFileName at hname
      unfold parseSrrHeader
      rw [if_pos (by decide)]
      rw [bind_eq_ok] at hname ⊢
      obtain ⟨l, h1, h2⟩ := hname
      exact ⟨l, h1, by rw [h2]; rfl⟩
    have hmk : mkBlock raw pre.length = .ok ⟨pre.length, 0x6969, 0x69, 1, raw.length, 0,
        raw, .srrHeader app⟩ := by
      rw [mkBlock_ok_iff]
      refine ⟨hc, ht, hf, hs, fun h => by simp at h, rfl, rfl, 0, by simp [hasFlag], ?_⟩
      simp [mkKind, hpk]
    have hane : a ≠ [] := by
      rintro rfl; exact happ (utf8Enc_nil.mp ha)
    have : 0 < a.length := List.length_pos_iff.mpr hane
    rw [readBlock_hdr hpos (by omega) ht hf hs (by simp), readBody_at (by omega)]
    simp [isRecoveryHdr_of_ne, recStep, hmk, hasFlag, happ]

/-- The block marking a RAR volume is read back; it sets the recovery attribute. -/
theorem read_rarFile {name : Str} {raw : Bytes} (hb : mkRarFile name = .ok raw)
    (pre rest : Bytes) (st : RState) (hpos : st.pos = pre.length) :
    readBlock .srr (pre ++ (raw ++ rest)) st =
      .ok (some (⟨pre.length, 0x7171, 0x71, 1, raw.length, 0, raw, .rarFile name⟩,
        ⟨pre.length + raw.length, st.endSeen, some true⟩)) := by
  rw [mkRarFile_ok_iff] at hb
  obtain ⟨n, hn, hne, hl, hraw⟩ := hb
  have hlen : raw.length = 9 + n.length := by rw [hraw]; simp; omega
  have ht : unpackAt 1 raw 2 = .ok 0x71 := by rw [hraw]; exact rawHdr_type (by omega)
  have hf : unpackAt 2 raw 3 = .ok 1 := by rw [hraw]; exact rawHdr_flags (by omega)
  have hs : unpackAt 2 raw 5 = .ok raw.length := by rw [hlen, hraw]; exact rawHdr_hsize hl
  have hc : unpackAt 2 raw 0 = .ok 0x7171 := by rw [hraw]; exact rawHdr_crc (by omega)
  have hname : unpackFileName raw 7 = .ok name := by
    rw [hraw]; exact unpackFileName_packed (by simp) hn (by omega)
  have hmk : mkBlock raw pre.length = .ok ⟨pre.length, 0x7171, 0x71, 1, raw.length, 0,
      raw, .rarFile name⟩ := by
    rw [mkBlock_ok_iff]
    exact ⟨hc, ht, hf, hs, fun h => by simp at h, rfl, rfl, 0, by simp [hasFlag], by simp [mkKind, hname]⟩
  rw [readBlock_hdr hpos (by omega) ht hf hs (by simp), readBody_at (by omega)]
  simp [isRecoveryHdr_of_ne, recStep, hmk, hasFlag]

/-- The OSO hash block is read back. -/
theorem read_oso {size : Nat} {name : Str} {hash : Nat} {raw : Bytes} (hb : mkOso size name hash = .ok raw)
    (pre rest : Bytes) (st : RState) (hpos : st.pos = pre.length) :
    readBlock .srr (pre ++ (raw ++ rest)) st =
      .ok (some (⟨pre.length, 0x6B6B, 0x6B, 0, raw.length, 0, raw, .oso size hash name⟩,
        ⟨pre.length + raw.length, st.endSeen, st.recRemoved⟩)) := by
  rw [mkOso_ok_iff] at hb
  obtain ⟨n, hn, hsz, hh, hl, hraw⟩ := hb
  have hlen : raw.length = 25 + n.length := by rw [hraw]; simp; omega
  have ht : unpackAt 1 raw 2 = .ok 0x6B := by rw [hraw]; exact rawHdr_type (by omega)
  have hf : unpackAt 2 raw 3 = .ok 0 := by rw [hraw]; exact rawHdr_flags (by omega)
  have hs : unpackAt 2 raw 5 = .ok raw.length := by rw [hlen, hraw]; exact rawHdr_hsize hl
  have hc : unpackAt 2 raw 0 = .ok 0x6B6B := by rw [hraw]; exact rawHdr_crc (by omega)
  have h1 : unpackAt 8 raw 7 = .ok size := by
    rw [hraw, rawHdr_skip (by omega)]; exact unpackAt_here hsz
  have h2 : unpackAt 8 raw 15 = .ok hash := by
    rw [hraw, rawHdr_skip (by omega), unpackAt_skip (by simp)]
    simpa using unpackAt_here hh
  have hname : unpackFileName raw 23 = .ok name := by
    rw [hraw, ← List.append_assoc, ← List.append_assoc]
    exact unpackFileName_packed (by simp) hn (by omega)
  have hmk : mkBlock raw pre.length = .ok ⟨pre.length, 0x6B6B, 0x6B, 0, raw.length, 0,
      raw, .oso size hash name⟩ := by
    rw [mkBlock_ok_iff]
    exact ⟨hc, ht, hf, hs, fun h => by simp at h, rfl, rfl, 0, by simp [hasFlag],
      by simp [mkKind, hname, h1, h2]⟩
  rw [readBlock_hdr hpos (by omega) ht hf hs (by simp), readBody_at (by omega)]
  simp [isRecoveryHdr_of_ne, recStep, hmk, hasFlag]

/-- The padding block is read back, with its bytes. -/
theorem read_padding {padding raw : Bytes} (hb : mkPadding padding = .ok raw)
    (pre rest : Bytes) (st : RState) (hpos : st.pos = pre.length) :
    readBlock .srr (pre ++ (raw ++ rest)) st =
      .ok (some (⟨pre.length, 0x6C6C, 0x6C, 0x8000, 11, padding.length, raw, .padding padding.length⟩,
        ⟨pre.length + raw.length, st.endSeen, st.recRemoved⟩)) := by
  rw [mkPadding_ok_iff] at hb
  obtain ⟨hsz, hraw⟩ := hb
  let h := rawHdr 0x6C6C 0x6C 0x8000 11 ++ le 4 padding.length
  have hh : h.length = 11 := by simp [h]
  have hraw' : raw = h ++ padding := by simp [h, hraw]
  have ht : ∀ x, unpackAt 1 (h ++ x) 2 = .ok 0x6C := fun x => by
    simp only [h, List.append_assoc]; exact rawHdr_type (by omega)
  have hf : ∀ x, unpackAt 2 (h ++ x) 3 = .ok 0x8000 := fun x => by
    simp only [h, List.append_assoc]; exact rawHdr_flags (by omega)
  have hs : ∀ x, unpackAt 2 (h ++ x) 5 = .ok 11 := fun x => by
    simp only [h, List.append_assoc]; exact rawHdr_hsize (by omega)
  have hc : ∀ x, unpackAt 2 (h ++ x) 0 = .ok 0x6C6C := fun x => by
    simp only [h, List.append_assoc]; exact rawHdr_crc (by omega)
  have ha : ∀ x, unpackAt 4 (h ++ x) 7 = .ok padding.length := fun x => by
    simp only [h, List.append_assoc]; rw [rawHdr_skip (by omega)]; exact unpackAt_here hsz
  have hmk : mkBlock (h ++ padding) pre.length = .ok ⟨pre.length, 0x6C6C, 0x6C, 0x8000, 11, padding.length,
      h ++ padding, .padding padding.length⟩ := by
    rw [mkBlock_ok_iff]
    refine ⟨hc _, ht _, hf _, hs _, fun h => by simp at h, rfl, rfl, padding.length, ?_, ?_⟩
    · rw [if_pos (show hasFlag 0x8000 0x8000 = true by decide), ha]
    · simp [mkKind, ha]
  rw [hraw', List.append_assoc]
  have e1 := ht []; have e2 := hf []; have e3 := hs []; have e4 := ha []
  rw [List.append_nil] at e1 e2 e3 e4
  rw [readBlock_hdr hpos (by omega) e1 e2 (by rw [e3, hh]) (by simp), readBody_at (by omega)]
  rw [if_pos (Or.inl (by decide)), e4]
  simp only [ok_bind, isRecoveryHdr_of_ne (show 0x6C ≠ 0x78 by omega) (show 0x6C ≠ 0x7A by omega), recStep]
  by_cases hp : padding.length = 0
  · have : padding = [] := List.length_eq_zero_iff.mp hp
    subst this
    simp only [List.append_nil] at hmk ⊢
    simp [hmk, hh]
  · have hp' : 0 < padding.length := by omega
    simp [hp', hmk, hh]
    omega

end Rescene
