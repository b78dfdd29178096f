import Verif.Spec.Repack
import Verif.Lemmas.Crc
/-
C17: copying packed data into a volume.
-/
namespace Rescene.Props
open Rescene Rescene.Spec

theorem crc32_nil (c : BitVec 32) : crc32 [] c = c := by
  unfold crc32
  rw [List.foldl_nil, BitVec.not_not]

theorem src_read {src : Src} {rest : Bytes} (h : Gives src rest) (n : Nat) :
    ∃ src', src.read n = .ok (rest.take n, src') ∧ Gives src' (rest.drop n) := by
  cases src with
  | file data pos =>
    simp only [Gives] at h
    subst h
    refine ⟨_, rfl, ?_⟩
    simp only [Gives, readAt, List.drop_drop, List.length_take, List.length_drop]
    by_cases hn : n ≤ data.length - pos
    · rw [Nat.min_eq_left hn]
    · rw [List.drop_of_length_le (by omega), List.drop_of_length_le (by omega)]
  | fake f =>
    obtain ⟨h1, h2, h3⟩ := h
    subst h3
    obtain ⟨size, pos⟩ := f
    dsimp only at h1 h2 ⊢
    simp only [Src.read, Fake.read, List.take_replicate, List.drop_replicate]
    rw [if_neg (by omega)]
    by_cases hz : size - pos = 0
    · rw [if_pos hz]
      refine ⟨.fake ⟨size, pos⟩, ?_, h1, h2, ?_⟩
      · have : min n (size - pos).toNat = 0 := by omega
        rw [this]; rfl
      · dsimp only
        have : (size - pos).toNat - n = (size - pos).toNat := by omega
        rw [this]
    · rw [if_neg hz]
      by_cases hge : size - pos ≥ (n : Int)
      · rw [if_pos hge]
        refine ⟨.fake ⟨size, pos + n⟩, ?_, ?_, ?_, ?_⟩
        · have e : min n (size - pos).toNat = n := by omega
          rw [e, genNull, if_neg (by omega)]; rfl
        · dsimp only; omega
        · dsimp only; omega
        · dsimp only
          have : (size - pos).toNat - n = (size - (pos + n)).toNat := by omega
          rw [this]
      · rw [if_neg hge]
        refine ⟨.fake ⟨size, size⟩, ?_, ?_, ?_, ?_⟩
        · have e : min n (size - pos).toNat = (size - pos).toNat := by omega
          rw [e, genNull, if_neg (by omega)]; rfl
        · dsimp only; omega
        · dsimp only; omega
        · dsimp only
          have : (size - pos).toNat - n = (size - size).toNat := by omega
          rw [this]

theorem repack_loop (size : Nat) (skip : Bool) : ∀ (fuel copied : Nat) (src : Src) (rest : Bytes) (running part : BitVec 32),
    Gives src rest → size - copied ≤ fuel →
    ∃ src', repackLoop size skip fuel copied src running part =
      .ok (filled rest (size - copied), src',
        if skip then running else crc32 (rest.take (size - copied)) running,
        if skip then part else crc32 (rest.take (size - copied)) part) ∧
      Gives src' (rest.drop (size - copied)) := by
  intro fuel
  induction fuel with
  | zero =>
    intro copied src rest running part hg hf
    have : size - copied = 0 := by omega
    refine ⟨src, ?_, by rw [this]; exact hg⟩
    rw [repackLoop, if_neg (by omega), this]
    cases skip <;> simp [filled, crc32_nil]
  | succ fuel ih =>
    intro copied src rest running part hg hf
    rw [repackLoop]
    by_cases hc : copied < size
    · rw [if_pos hc]
      obtain ⟨n, hn⟩ : ∃ n, n = if size - copied > 0x10000 then 0x10000 else size - copied := ⟨_, rfl⟩
      have hn1 : 0 < n ∧ n ≤ size - copied := by rw [hn]; split <;> omega
      simp only [← hn]
      obtain ⟨src1, hr, hg1⟩ := src_read hg n
      rw [hr, ok_bind]
      dsimp only
      obtain ⟨src2, hr2, hg2⟩ := ih (copied + n) src1 (rest.drop n)
        (if skip = true then running else crc32 (rest.take n) running)
        (if skip = true then part else crc32 (rest.take n) part) hg1 (by omega)
      rw [hr2, ok_bind]
      refine ⟨src2, ?_, ?_⟩
      · have e : n + (size - (copied + n)) = size - copied := by omega
        have hcrc : ∀ c, crc32 ((rest.drop n).take (size - (copied + n))) (crc32 (rest.take n) c) =
            crc32 (rest.take (size - copied)) c := by
          intro c
          rw [← crc32_append, ← e, List.take_add]
        have hfill : rest.take n ++ (if (rest.take n).length ≠ n then List.replicate (n - (rest.take n).length) 0 else []) ++
            filled (rest.drop n) (size - (copied + n)) = filled rest (size - copied) := by
          unfold filled
          by_cases hl : n ≤ rest.length
          · have : (rest.take n).length = n := by rw [List.length_take]; omega
            rw [if_neg (by simpa using this), List.append_nil, ← List.append_assoc, ← List.take_add, e]
            have : size - (copied + n) - (rest.drop n).length = size - copied - rest.length := by
              rw [List.length_drop]; omega
            rw [this]
          · have hd : rest.drop n = [] := List.drop_of_length_le (by omega)
            have ht : rest.take n = rest := List.take_of_length_le (by omega)
            rw [hd, ht, if_pos (by omega), List.take_nil, List.nil_append, List.append_assoc,
              List.replicate_append_replicate, List.take_of_length_le (by omega)]
            have : n - rest.length + (size - (copied + n) - ([] : Bytes).length) = size - copied - rest.length := by
              rw [List.length_nil]; omega
            rw [this]
        dsimp only
        rw [pure_eq_ok, hfill]
        cases skip
        · simp only [Bool.false_eq_true, if_false, hcrc]
        · rfl
      · rw [List.drop_drop] at hg2
        have e : n + (size - (copied + n)) = size - copied := by omega
        rw [e] at hg2
        exact hg2
    · have : size - copied = 0 := by omega
      refine ⟨src, ?_, by rw [this]; exact hg⟩
      rw [if_neg hc, this]
      cases skip <;> simp [filled, crc32_nil]

/-- C17: copying packed data writes exactly the packed size: the next bytes of the source, filled
up with zeros; the source has moved by as much; the running CRC covers what was copied, and a
CRC that does not match is reported unless checks are switched off. -/
theorem repack_exact (flags : Nat) (f : FileFields) (src : Src) (rest : Bytes) (running : BitVec 32) (skip : Bool)
    (h : Gives src rest) :
    ∃ src', repack flags f src running skip =
      .ok (filled rest f.packedSize, src',
        if skip then running else crc32 (rest.take f.packedSize) running,
        if skip then [] else mismatch flags f (rest.take f.packedSize) running) ∧
      Gives src' (rest.drop f.packedSize) ∧ (filled rest f.packedSize).length = f.packedSize := by
  obtain ⟨src', h1, h2⟩ := repack_loop f.packedSize skip f.packedSize 0 src rest running 0 h (by omega)
  rw [Nat.sub_zero] at h1 h2
  refine ⟨src', ?_, h2, ?_⟩
  · unfold repack
    rw [h1, ok_bind]
    dsimp only
    rw [pure_eq_ok]
    cases skip
    · simp only [Bool.false_eq_true, if_false]
      congr 4
      unfold crcReport mismatch hasFlag
      by_cases hf : flags &&& 2 = 0
      · simp only [hf, beq_self_eq_true, Bool.true_eq_false, false_and, if_false, true_and, bne_self_eq_false,
          Bool.false_eq_true]
        by_cases h3 : f.method = 0x30 <;> by_cases h4 : f.fileCrc = (crc32 (rest.take f.packedSize) running).toNat <;>
          simp [h3, h4]
      · have : (flags &&& 2 == 0) = false := by simpa using hf
        have h5 : (flags &&& 2 != 0) = true := by simpa using hf
        simp only [this, h5, true_and, if_true, Bool.false_eq_true, false_and, if_false]
        by_cases h4 : f.fileCrc = (crc32 (rest.take f.packedSize) 0).toNat <;> simp [h4]
    · rfl
  · unfold filled
    rw [List.length_append, List.length_take, List.length_replicate]
    omega

/-- A file and a fake file, with something to copy and too little of it. -/
example : Gives (.file [1, 2, 3, 4] 1) [2, 3, 4] ∧ filled [2, 3, 4] 5 = [2, 3, 4, 0, 0] := ⟨rfl, rfl⟩
example : Gives (.fake ⟨5, 2⟩) [0, 0, 0] := ⟨by decide, by decide, rfl⟩

end Rescene.Props
