import Verif.Lemmas.Crc
/-
C18, C19: CRC-32 over chunks and `crc32_combine`.
-/
namespace Rescene.Props

/-- The definition used here is the CRC-32 of ISO 3309: its check value. -/
example : crc32 [0x31, 0x32, 0x33, 0x34, 0x35, 0x36, 0x37, 0x38, 0x39] 0 = 0xCBF43926#32 := by
  decide +kernel

/-- C18: feeding the pieces of any partition one after the other gives the checksum of the
whole, from every start value. -/
theorem crc_any_chunks (pieces : List Bytes) (start : BitVec 32) :
    pieces.foldl (fun crc x => crc32 x crc) start = crc32 pieces.flatten start := by
  induction pieces generalizing start with
  | nil => simp [crc32]
  | cons p ps ih => rw [List.foldl_cons, ih, List.flatten_cons, crc32_append]

/-- C18: `calculate_crc32`, which reads 64 KiB at a time, ends and returns the checksum of
the whole file. -/
theorem calculate_crc32_correct (data : Bytes) : calculateCrc32 data = .ok (crc32 data 0) :=
  crcChunks_ok 65536 (by decide) _ _ _ (by omega)

example : [[1, 2], [], [3]].foldl (fun crc x => crc32 x crc) 0 = crc32 [1, 2, 3] 0 := by
  decide +kernel

/-- C19: for all byte strings `a` and `b`. -/
theorem crc32_combine_correct (a b : Bytes) :
    crc32Combine (crc32 a 0) (crc32 b 0) b.length = .ok (crc32 (a ++ b) 0) := by
  unfold crc32Combine
  by_cases hb : b = []
  · subst hb; simp
  · have hl : 0 < b.length := List.length_pos_iff.mpr hb
    rw [if_neg (by omega)]
    have h4 := represents_double (represents_double represents_one)
    simp only [Int.toNat_natCast]
    rw [combineLoop_ok _ _ _ _ _ h4 (by omega), ok_bind, crc32_concat]
    simp

/-- C19: a negative length leaves the first checksum unchanged. -/
theorem crc32_combine_negative (c1 c2 : BitVec 32) (n : Int) (h : n < 0) :
    crc32Combine c1 c2 n = .ok c1 := by
  unfold crc32Combine; rw [if_pos (by omega)]

set_option maxRecDepth 10000 in
example : crc32Combine (crc32 [1, 2, 3] 0) (crc32 [4, 5] 0) 2 = .ok (crc32 [1, 2, 3, 4, 5] 0) := by
  decide +kernel

end Rescene.Props
