import Verif.Spec.Damage
import Verif.Lemmas.CrcOrder
import Verif.Props.SrrVerify
import Verif.Props.SrsMain
import Verif.Props.MovCut
import Verif.Props.WmvCut
import Verif.Props.MkvRetry
/-
C83: damaged files are noticed.
-/
namespace Rescene.Props
open Rescene Spec

theorem modify_left {α : Type} (f : α → α) (a b : List α) : ∀ p, p < a.length → (a ++ b).modify p f = a.modify p f ++ b := by
  induction a with
  | nil => intro p h; simp at h
  | cons x t ih =>
    intro p h
    cases p with
    | zero => simp
    | succ p =>
      simp only [List.length_cons] at h
      rw [List.cons_append, List.modify_succ_cons, List.modify_succ_cons, ih _ (by omega), List.cons_append]

theorem modify_right {α : Type} (f : α → α) (a b : List α) (p : Nat) : (a ++ b).modify (a.length + p) f = a ++ b.modify p f := by
  induction a with
  | nil => simp
  | cons x t ih =>
    rw [List.cons_append, List.length_cons, show t.length + 1 + p = (t.length + p) + 1 by omega, List.modify_succ_cons, ih, List.cons_append]

theorem bits_fileBits (d : Bytes) : bits d = fileBits d := rfl

theorem byteBits_flip : ∀ (b : UInt8) (j : Nat), j < 8 → byteBits (b ^^^ (1 <<< UInt8.ofNat j)) = (byteBits b).modify j (!·) := by
  have : ∀ n : Fin 256, ∀ j : Fin 8, byteBits (UInt8.ofNat n.1 ^^^ (1 <<< UInt8.ofNat j.1)) = (byteBits (UInt8.ofNat n.1)).modify j.1 (!·) := by
    decide +kernel
  intro b j hj
  have h := this ⟨b.toNat, b.toNat_lt⟩ ⟨j, hj⟩
  simpa using h

/-- The bits of a file with one bit changed. -/
theorem bits_flip (d : Bytes) : ∀ p, bits (flipBit d p) = (bits d).modify p (!·) := by
  induction d with
  | nil => intro p; unfold flipBit bits; simp
  | cons b t ih =>
    intro p
    unfold flipBit at ih ⊢
    rw [bits_fileBits, bits_fileBits] at *
    unfold fileBits at ih ⊢
    by_cases hp : p < 8
    · have : p / 8 = 0 := by omega
      rw [this, List.modify_zero_cons, List.flatMap_cons, List.flatMap_cons, byteBits_flip _ _ (by omega), show p % 8 = p by omega]
      rw [modify_left _ _ _ _ (by rw [byteBits_length]; exact hp)]
    · have : p / 8 = (p - 8) / 8 + 1 := by omega
      rw [this, List.modify_succ_cons, List.flatMap_cons, List.flatMap_cons]
      have h2 := ih (p - 8)
      rw [show (p - 8) % 8 = p % 8 by omega] at h2
      have h3 : ∀ l : Bytes, l.flatMap byteBits = bits l := fun _ => rfl
      rw [h3, h3] at *
      rw [h2]
      have h4 := modify_right (!·) (byteBits b) (bits t) (p - 8)
      rw [byteBits_length, show 8 + (p - 8) = p by omega] at h4
      rw [h4]

theorem flip_length (d : Bytes) (p : Nat) : (flipBit d p).length = d.length := by simp [flipBit]

theorem one_power : (1#32 : BitVec 32) = zeros 31 crcOne := by decide +kernel

/-- What a changed bit does to the checksum. -/
theorem foldl_modify (l : List Bool) : ∀ (p : Nat) (s : BitVec 32), p < l.length →
    (l.modify p (!·)).foldl crcBit s = l.foldl crcBit s ^^^ zeros (l.length - p + 31) crcOne := by
  induction l with
  | nil => intro p s h; simp at h
  | cons b t ih =>
    intro p s h
    cases p with
    | zero =>
      rw [List.modify_zero_cons, List.foldl_cons, List.foldl_cons]
      have hb : crcBit s (!b) = crcBit s b ^^^ zeros 32 crcOne := by
        have : zeros 32 crcOne = crcStep 1#32 := by decide +kernel
        rw [this]
        unfold crcBit
        rw [← crcStep_xor, BitVec.xor_assoc]
        have e : (if (!b) = true then 1#32 else 0 : BitVec 32) = (if b = true then 1#32 else 0) ^^^ 1#32 := by cases b <;> decide +kernel
        rw [e]
      rw [hb, foldl_crcBit_xor, ← zeros_add, List.length_cons, show t.length + 1 - 0 + 31 = 32 + t.length by omega]
    | succ p =>
      simp only [List.length_cons] at h
      rw [List.modify_succ_cons, List.foldl_cons, List.foldl_cons, ih _ _ (by omega), List.length_cons, show t.length + 1 - (p + 1) + 31 = t.length - p + 31 by omega]

theorem not_inj32 {a b : BitVec 32} (h : ~~~ a = ~~~ b) : a = b := by
  rw [← BitVec.not_not (b := a), h, BitVec.not_not]

theorem bits_length (d : Bytes) : (bits d).length = 8 * d.length := fileBits_length d

theorem crc_of_bits (d : Bytes) : crc32 d 0 = ~~~ ((bits d).foldl crcBit (~~~ 0)) := crc32_bits d

/-- The checksum with one bit changed. -/
theorem crc_flip (d : Bytes) {p : Nat} (hp : p < 8 * d.length) : crc32 (flipBit d p) 0 = crc32 d 0 ^^^ zeros (8 * d.length - p + 31) crcOne := by
  rw [crc_of_bits, crc_of_bits, bits_flip, foldl_modify _ _ _ (by rw [bits_length]; exact hp), bits_length, not_xor_eq]

theorem xor_ne {a b : BitVec 32} (h : b ≠ 0) : a ^^^ b ≠ a := by
  intro he
  apply h
  have := congrArg (fun v => a ^^^ v) he
  simp only [← BitVec.xor_assoc, BitVec.xor_self] at this
  rw [show (0#32 ^^^ b : BitVec 32) = b from BitVec.zero_xor] at this
  exact this

theorem power_ne_zero (n : Nat) : zeros n crcOne ≠ 0 := by
  intro h
  exact absurd (zeros_eq_zero h) (by decide)

/-- C83: damage changes the checksum. -/
theorem damage_changes_crc {d d' : Bytes} (h : Damaged d d') : crc32 d' 0 ≠ crc32 d 0 := by
  cases h with
  | oneBit p hp =>
    rw [crc_flip d hp]
    exact xor_ne (power_ne_zero _)
  | twoBits p q hpq hq hlen =>
    rw [crc_flip _ (by rw [flip_length]; exact hlen), flip_length, crc_flip d (by omega), BitVec.xor_assoc]
    apply xor_ne
    intro h0
    have := xor_eq_zero32 h0
    have e : crcPeriod = 2 ^ 32 - 1 := by decide
    exact powers_differ (by omega) (by omega) (by omega) this
  | burst pre x y post d' h1 h2 hl h32 hne =>
    intro hc
    rw [crc_of_bits, crc_of_bits] at hc
    have := not_inj32 hc
    rw [h1, h2, List.foldl_append, List.foldl_append, List.foldl_append, List.foldl_append] at this
    have := suffix_inj this
    rw [foldl_crcBit (by omega), foldl_crcBit h32, hl] at this
    have := zeros_inj this
    have hw : bitsWord y = bitsWord x := by
      have h3 := congrArg (fun v => pre.foldl crcBit (~~~ 0) ^^^ v) this
      simp only [← BitVec.xor_assoc, BitVec.xor_self] at h3
      rw [show ∀ z : BitVec 32, (0#32 ^^^ z : BitVec 32) = z from fun z => BitVec.zero_xor, show ∀ z : BitVec 32, (0#32 ^^^ z : BitVec 32) = z from fun z => BitVec.zero_xor] at h3
      exact h3
    have hxy := bitsWord_inj hl h32 hw.symm
    subst hxy
    exact hne (bits_inj (h1.trans h2.symm))
where
  bits_inj : ∀ {d d' : Bytes}, bits d = bits d' → d = d' := by
    intro d
    induction d with
    | nil =>
      intro d' h
      have := congrArg List.length h
      rw [bits_length, bits_length] at this
      have : d'.length = 0 := by simp at this; omega
      exact (List.length_eq_zero_iff.1 this).symm
    | cons b t ih =>
      intro d' h
      cases d' with
      | nil =>
        have := congrArg List.length h
        rw [bits_length, bits_length] at this
        simp at this
      | cons b' t' =>
        have hb : ∀ (b : UInt8) (t : Bytes), bits (b :: t) = byteBits b ++ bits t := fun _ _ => rfl
        rw [hb, hb] at h
        obtain ⟨h1, h2⟩ := List.append_inj h (by rw [byteBits_length, byteBits_length])
        rw [ih h2]
        have h3 := congrArg bitsWord h1
        rw [byteBits_word, byteBits_word] at h3
        have h4 := congrArg BitVec.toNat h3
        simp only [BitVec.toNat_ofNat] at h4
        rw [Nat.mod_eq_of_lt (by have := b.toNat_lt; omega), Nat.mod_eq_of_lt (by have := b'.toNat_lt; omega)] at h4
        rw [UInt8.toNat_inj.1 h4]

/-- C83: in files of less than 512 MiB no two changed bits go unnoticed. -/
theorem two_bits_noticed {d : Bytes} {p q : Nat} (hd : d.length < 2 ^ 29) (hp : p < 8 * d.length) (hq : q < 8 * d.length) (hne : p ≠ q) :
    crc32 (flipBit (flipBit d p) q) 0 ≠ crc32 d 0 := by
  rcases Nat.lt_or_gt_of_ne hne with h | h
  · exact damage_changes_crc (.twoBits p q h (by omega) hq)
  · have := damage_changes_crc (.twoBits (d := d) q p h (by omega) hp)
    rw [crc_flip _ (by rw [flip_length]; exact hq), crc_flip _ hp, flip_length, BitVec.xor_assoc, BitVec.xor_comm (zeros _ _), ← BitVec.xor_assoc]
    rw [crc_flip _ (by rw [flip_length]; exact hp), crc_flip _ hq, flip_length] at this
    exact this

/-- C83, the limit is sharp: two bits that are 2^32 - 1 apart are never noticed. -/
theorem two_bits_missed (d : Bytes) (p : Nat) (h : p + (2 ^ 32 - 1) < 8 * d.length) :
    crc32 (flipBit (flipBit d p) (p + (2 ^ 32 - 1))) 0 = crc32 d 0 := by
  rw [crc_flip _ (by rw [flip_length]; exact h), flip_length, crc_flip d (by omega), BitVec.xor_assoc]
  have e : 8 * d.length - p + 31 = crcPeriod + (8 * d.length - (p + (2 ^ 32 - 1)) + 31) := by
    have : crcPeriod = 2 ^ 32 - 1 := by decide
    omega
  rw [e, powers_again, BitVec.xor_self]
  exact BitVec.xor_zero

/-- C83: `calculate_crc32` of the damaged file is another one. -/
theorem calculated_differs {d d' : Bytes} (h : Damaged d d') : calculateCrc32 d' ≠ calculateCrc32 d := by
  rw [calculate_crc32_correct, calculate_crc32_correct]
  intro he
  exact damage_changes_crc h (Except.ok.inj he)

/-- C83: `srr -q` does not accept a damaged file where the extracted file should be. -/
theorem verify_notices_damage {lower upper : Str → Str} {srr : Bytes} {fs : FS} {below : List Path} {folder : Str} {auto : Bool} {bs : List Block}
    (hb : readAll srr = .ok bs) {name : Str} {last : FileFields} (hlast : (partsOf name bs).getLast? = some last) (h0 : last.fileCrc ≠ 0)
    {d d' : Bytes} (hd : (crc32 d 0).toNat = last.fileCrc) (hfile : fs (posixJoin2 folder (withSlashes name)) = some d') (hdam : Damaged d d') :
    verifyExtracted lower upper srr fs below folder auto ≠ .ok 0 := by
  intro h
  obtain ⟨size, compressed, hv⟩ := verify_sound hb h name last hlast h0
  rcases hv with ⟨x, h1, h2⟩ | ⟨h1, _⟩
  · unfold extractedAt at h1
    rw [hfile] at h1
    cases h1
    apply damage_changes_crc hdam
    apply BitVec.eq_of_toNat_eq
    rw [h2, hd]
  · unfold extractedAt at h1
    rw [hfile] at h1
    cases h1

/-- The CRC of a sample that is reported as right is the recorded one, for every kind. -/
theorem rebuilt_crc {k : SampleKind} {srs main : Bytes} {ig : Bool} {r : SrsResult} (h : rebuildAs k srs main ig = .ok r) (hg : r.good = true) :
    (crc32 r.file 0).toNat = r.crc := by
  cases k with
  | stream => exact (srs_result_sound h).1.1 hg
  | avi => exact (avi_result_sound h).1 hg
  | mp4 => exact (mp4_result_sound h).1 hg
  | wmv => exact (wmv_result_sound h).1 hg
  | mkv => exact (restore_honest h).2.1 hg
  | flac => exact (flac_result_sound h).1.1 hg
  | mp3 => exact (mp3_result_sound h).1.1 hg
  | m2ts => cases h
  | unknown => cases h

/-- C83: `srs` never reports a damaged sample as right: not from a damaged movie, and not from any other file. -/
theorem sample_notices_damage {dig : Nat → Bool} {lower : Str → Str} {srsPath : Str} {srs : Bytes} {movie : MediaFile} {ig : Bool} {r : SrsResult}
    (h : srsRestore dig lower srsPath srs movie ig = some (.ok r)) (hg : r.good = true)
    {sample : Bytes} (hcrc : r.crc = (crc32 sample 0).toNat) : ¬ Damaged sample r.file := by
  intro hd
  apply damage_changes_crc hd
  apply BitVec.eq_of_toNat_eq
  rw [← hcrc]
  unfold srsRestore at h
  split at h
  · simp at h
  · simp at h
  · next ks km h1 h2 =>
    by_cases g1 : ks = .unknown
    · rw [if_pos g1] at h; simp at h
    · rw [if_neg g1] at h
      by_cases g2 : km = .unknown ∧ ks ≠ .stream
      · rw [if_pos g2] at h; simp at h
      · rw [if_neg g2] at h
        by_cases g3 : (if km = .unknown then .stream else km) = ks
        · rw [if_pos g3] at h
          cases hd : movie.data dig with
          | error e => rw [hd] at h; simp at h
          | ok d =>
            rw [hd] at h
            exact rebuilt_crc (Option.some.inj h) hg
        · rw [if_neg g3] at h; simp at h

/-! ### Examples -/

/-- The kinds of damage are possible. -/
example : Damaged [1, 2, 3] [1, 0, 3] := Damaged.oneBit (d := [1, 2, 3]) 9 (by decide)

example : Damaged [1, 2, 3] [0, 2, 2] := Damaged.twoBits (d := [1, 2, 3]) 0 16 (by decide) (by decide) (by decide)

example : Damaged [1, 2, 3, 4, 5, 6] [1, 0x12, 9, 9, 9, 0x0A] :=
  Damaged.burst (bits [1] ++ [false, true, false, false]) ((bits [2, 3, 4, 5, 6]).drop 4 |>.take 32) ((bits [0x12, 9, 9, 9, 0x0A]).drop 4 |>.take 32)
    [false, false, false, false] _ (by decide) (by decide) (by decide) (by decide) (by decide)

/-- The hypotheses of `verify_notices_damage` hold in the example of C73. -/
example : ∃ srr, exCheckedSrr [1, 2, 3, 4] [0xCD, 0xFB, 0x3C, 0xB6] = .ok srr ∧ (crc32 [1, 2, 3, 4] 0).toNat = 0xB63CFBCD ∧ Damaged [1, 2, 3, 4] [1, 2, 3, 5] :=
  ⟨_, rfl, by decide +kernel, Damaged.oneBit (d := [1, 2, 3, 4]) 24 (by decide)⟩

end Rescene.Props
