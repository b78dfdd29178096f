import Verif.Lemmas.Crc
/-
Which changes of a file change its CRC-32: the order of `x` modulo the polynomial, and the bits of a file one by one.
-/
namespace Rescene

/-! ### Injective -/

theorem crcStep_eq_zero {x : BitVec 32} (h : crcStep x = 0) : x = 0 := by
  unfold crcStep at h
  split at h
  · rename_i hb
    have h31 := congrArg (fun v => v.getLsbD 31) h
    simp [BitVec.getLsbD_xor] at h31
  · rename_i hb
    apply BitVec.eq_of_getLsbD_eq
    intro i hi
    cases i with
    | zero => simpa using hb
    | succ i =>
      have := congrArg (fun v => v.getLsbD i) h
      simp only [BitVec.getLsbD_ushiftRight] at this
      rw [Nat.add_comm] at this
      simpa using this

theorem xor_eq_zero32 {x y : BitVec 32} (h : x ^^^ y = 0) : x = y := by
  have : x ^^^ y ^^^ y = 0 ^^^ y := by rw [h]
  rw [BitVec.xor_assoc, BitVec.xor_self, BitVec.xor_zero] at this
  rw [this]; exact BitVec.zero_xor

theorem zeros_eq_zero {n : Nat} : ∀ {x : BitVec 32}, zeros n x = 0 → x = 0 := by
  induction n with
  | zero => intro x h; exact h
  | succ n ih => intro x h; exact crcStep_eq_zero (ih h)

theorem zeros_inj {n : Nat} {x y : BitVec 32} (h : zeros n x = zeros n y) : x = y := by
  apply xor_eq_zero32
  apply zeros_eq_zero (n := n)
  rw [zeros_lin, h, BitVec.xor_self]; rfl

/-! ### Many zero bits at once -/

/-- `n` times an operator, by squaring. -/
def zerosFast : Nat → List (BitVec 32) → BitVec 32 → Nat → BitVec 32
  | 0, _, c, _ => c
  | f + 1, m, c, n => zerosFast f (matrixSquare m) (if n % 2 = 1 then matrixTimes m c else c) (n / 2)

theorem zerosFast_eq (f : Nat) : ∀ {m : List (BitVec 32)} {k : Nat} (c : BitVec 32) (n : Nat), Represents m (zeros k) → n < 2 ^ f →
    zerosFast f m c n = zeros (k * n) c := by
  induction f with
  | zero =>
    intro m k c n _ hn
    have : n = 0 := by simpa using hn
    subst this; rfl
  | succ f ih =>
    intro m k c n hm hn
    rw [zerosFast, ih _ _ (represents_double hm) (by rw [Nat.pow_succ] at hn; omega), hm.times, zeros_bit]

/-- `1`: the first bit. -/
def crcOne : BitVec 32 := 0x80000000#32

/-- 2^32 - 1. -/
def crcPeriod : Nat := 4294967295

theorem zeros_big (n : Nat) (h : n < 2 ^ 32) : zeros n crcOne = zerosFast 32 oneZeroBit crcOne n := by
  rw [zerosFast_eq 32 _ _ represents_one h, Nat.one_mul]

set_option maxRecDepth 100000 in
theorem period_one : zeros crcPeriod crcOne = crcOne := by
  rw [zeros_big _ (by decide)]
  decide +kernel

set_option maxRecDepth 100000 in
theorem parts_not_one : zeros (crcPeriod / 3) crcOne ≠ crcOne ∧ zeros (crcPeriod / 5) crcOne ≠ crcOne ∧ zeros (crcPeriod / 17) crcOne ≠ crcOne ∧
    zeros (crcPeriod / 257) crcOne ≠ crcOne ∧ zeros (crcPeriod / 65537) crcOne ≠ crcOne := by
  rw [zeros_big _ (by decide), zeros_big _ (by decide), zeros_big _ (by decide), zeros_big _ (by decide), zeros_big _ (by decide)]
  decide +kernel

/-! ### The order -/

theorem one_mul_period {d : Nat} (h : zeros d crcOne = crcOne) (k : Nat) : zeros (d * k) crcOne = crcOne := by
  induction k with
  | zero => rfl
  | succ k ih => rw [Nat.mul_succ, zeros_add, ih, h]

theorem one_mod {a b : Nat} (ha : zeros a crcOne = crcOne) (hb : zeros b crcOne = crcOne) : zeros (a % b) crcOne = crcOne := by
  have h := Nat.div_add_mod a b
  have : zeros (b * (a / b) + a % b) crcOne = crcOne := by rw [h]; exact ha
  rw [zeros_add, one_mul_period hb] at this
  exact this

theorem one_gcd (a : Nat) : ∀ b : Nat, zeros a crcOne = crcOne → zeros b crcOne = crcOne → zeros (Nat.gcd a b) crcOne = crcOne := by
  induction a using Nat.strongRecOn with
  | ind a ih =>
    intro b ha hb
    by_cases h0 : a = 0
    · subst h0; rw [Nat.gcd_zero_left]; exact hb
    · rw [Nat.gcd_rec]
      exact ih _ (Nat.mod_lt _ (by omega)) _ (one_mod hb ha) ha

theorem prime_gcd {q : Nat} (hq : ∀ d, d ∣ q → d = 1 ∨ d = q) (c : Nat) : Nat.Coprime c q ∨ q ∣ c := by
  rcases hq _ (Nat.gcd_dvd_right c q) with h | h
  · exact Or.inl h
  · exact Or.inr (h ▸ Nat.gcd_dvd_left c q)

theorem prime_of_le {q : Nat} (hq : 0 < q) (h : ∀ d < q + 1, d ∣ q → d = 1 ∨ d = q) : ∀ d, d ∣ q → d = 1 ∨ d = q := by
  intro d hd
  exact h d (by have := Nat.le_of_dvd hq hd; omega) hd

set_option maxRecDepth 100000 in
theorem prime_65537 : ∀ d, d ∣ 65537 → d = 1 ∨ d = 65537 := by
  have small : ∀ d < 257, d ∣ 65537 → d = 1 := by decide +kernel
  intro d hd
  obtain ⟨e, he⟩ := hd
  by_cases h : d < 257
  · exact Or.inl (small d h ⟨e, he⟩)
  · have : e < 257 := by
      apply Nat.lt_of_not_le
      intro h2
      have := Nat.mul_le_mul (Nat.le_of_not_lt h) h2
      omega
    have := small e this ⟨d, by rw [Nat.mul_comm]; exact he⟩
    subst this
    omega

set_option maxRecDepth 100000 in
/-- A proper divisor of the period divides one of the largest proper ones. -/
theorem proper_divisor {g : Nat} (hg : g ∣ crcPeriod) (hne : g ≠ crcPeriod) : ∃ q, q ∈ [3, 5, 17, 257, 65537] ∧ g ∣ crcPeriod / q := by
  obtain ⟨c, hc⟩ := hg
  have hprod : crcPeriod = 3 * (5 * (17 * (257 * 65537))) := by decide
  have step : ∀ q, q ∈ [3, 5, 17, 257, 65537] → q ∣ c → g ∣ crcPeriod / q := by
    rintro q hq ⟨e, he⟩
    refine ⟨e, ?_⟩
    have hq0 : 0 < q := by
      simp only [List.mem_cons, List.not_mem_nil, or_false] at hq
      omega
    rw [hc, he, ← Nat.mul_assoc, Nat.mul_comm g q, Nat.mul_assoc, Nat.mul_div_cancel_left _ hq0]
  by_cases h : ∃ q, q ∈ [3, 5, 17, 257, 65537] ∧ q ∣ c
  · obtain ⟨q, h1, h2⟩ := h
    exact ⟨q, h1, step q h1 h2⟩
  · have hno : ∀ q, q ∈ [3, 5, 17, 257, 65537] → ¬ q ∣ c := fun q hq hd => h ⟨q, hq, hd⟩
    have hd : c ∣ 3 * (5 * (17 * (257 * 65537))) := ⟨g, by rw [← hprod, hc, Nat.mul_comm]⟩
    have c1 : Nat.Coprime c 3 := (prime_gcd (prime_of_le (by decide) (by decide +kernel)) c).resolve_right (hno 3 (by simp))
    have c2 : Nat.Coprime c 5 := (prime_gcd (prime_of_le (by decide) (by decide +kernel)) c).resolve_right (hno 5 (by simp))
    have c3 : Nat.Coprime c 17 := (prime_gcd (prime_of_le (by decide) (by decide +kernel)) c).resolve_right (hno 17 (by simp))
    have c4 : Nat.Coprime c 257 := (prime_gcd (prime_of_le (by decide) (by decide +kernel)) c).resolve_right (hno 257 (by simp))
    have c5 : Nat.Coprime c 65537 := (prime_gcd prime_65537 c).resolve_right (hno 65537 (by simp))
    have d1 := c1.dvd_of_dvd_mul_left hd
    have d2 := c2.dvd_of_dvd_mul_left d1
    have d3 := c3.dvd_of_dvd_mul_left d2
    have d4 := c4.dvd_of_dvd_mul_left d3
    have d5 : c = 1 := by
      have : Nat.gcd c 65537 = c := Nat.gcd_eq_left d4
      rw [← this]; exact c5
    rw [d5, Nat.mul_one] at hc
    exact absurd hc.symm hne

/-- `x` has the order 2^32 - 1. -/
theorem one_order {d : Nat} (h0 : 0 < d) (hd : d < crcPeriod) : zeros d crcOne ≠ crcOne := by
  intro h
  have hg := one_gcd d crcPeriod h period_one
  have hdv := Nat.gcd_dvd_right d crcPeriod
  have hle := Nat.le_of_dvd h0 (Nat.gcd_dvd_left d crcPeriod)
  obtain ⟨q, hq, e, he⟩ := proper_divisor hdv (by omega)
  have := one_mul_period hg e
  rw [← he] at this
  obtain ⟨p1, p2, p3, p4, p5⟩ := parts_not_one
  simp only [List.mem_cons, List.not_mem_nil, or_false] at hq
  rcases hq with rfl | rfl | rfl | rfl | rfl
  · exact p1 this
  · exact p2 this
  · exact p3 this
  · exact p4 this
  · exact p5 this

/-- Different powers of `x` are different, unless they are 2^32 - 1 or more apart. -/
theorem powers_differ {a b : Nat} (h : a ≠ b) (h1 : a < b + crcPeriod) (h2 : b < a + crcPeriod) : zeros a crcOne ≠ zeros b crcOne := by
  have key : ∀ a b : Nat, a < b → b < a + crcPeriod → zeros a crcOne ≠ zeros b crcOne := by
    intro a b hlt hb he
    have e : b = (b - a) + a := by omega
    rw [e, zeros_add] at he
    exact one_order (d := b - a) (by omega) (by omega) (zeros_inj he).symm
  rcases Nat.lt_or_gt_of_ne h with h | h
  · exact key a b h h2
  · exact fun he => key b a h h1 he.symm

theorem powers_again (a : Nat) : zeros (crcPeriod + a) crcOne = zeros a crcOne := by rw [zeros_add, period_one]

/-! ### Bits -/

/-- A bit of data. -/
def crcBit (c : BitVec 32) (b : Bool) : BitVec 32 := crcStep (c ^^^ (if b then 1#32 else 0))

/-- The bits of a byte, the lowest first. -/
def byteBits (b : UInt8) : List Bool := (List.range 8).map fun i => b.toNat.testBit i

/-- A number of bits as a word, the lowest first. -/
def bitsWord : List Bool → BitVec 32
  | [] => 0
  | b :: t => (bitsWord t <<< 1) ^^^ (if b then 1#32 else 0)

theorem bitsWord_high {l : List Bool} {i : Nat} (h : l.length ≤ i) : (bitsWord l).getLsbD i = false := by
  induction l generalizing i with
  | nil => simp [bitsWord]
  | cons b t ih =>
    simp only [List.length_cons] at h
    unfold bitsWord
    rw [BitVec.getLsbD_xor, BitVec.getLsbD_shiftLeft]
    have h1 : (bitsWord t).getLsbD (i - 1) = false := ih (by omega)
    have h2 : (if b then 1#32 else (0 : BitVec 32)).getLsbD i = false := by
      split
      · rw [BitVec.getLsbD_one]; simp; omega
      · simp
    rw [h1, h2]; simp

theorem crcStep_shift {w : BitVec 32} (h : w.getLsbD 31 = false) : crcStep (w <<< 1) = w := by
  unfold crcStep
  rw [if_neg (by simp)]
  apply BitVec.eq_of_getLsbD_eq
  intro i hi
  rw [BitVec.getLsbD_ushiftRight, BitVec.getLsbD_shiftLeft]
  by_cases h31 : i = 31
  · subst h31
    rw [h]; simp
  · simp; omega

theorem foldl_crcBit {l : List Bool} (h : l.length ≤ 32) (c : BitVec 32) : l.foldl crcBit c = zeros l.length (c ^^^ bitsWord l) := by
  induction l generalizing c with
  | nil =>
    show c = c ^^^ 0
    exact BitVec.xor_zero.symm
  | cons b t ih =>
    simp only [List.length_cons] at h
    simp only [List.foldl_cons, List.length_cons, zeros, bitsWord]
    rw [ih (by omega)]
    congr 1
    unfold crcBit
    rw [BitVec.xor_comm (bitsWord t <<< 1), ← BitVec.xor_assoc, crcStep_xor (c ^^^ _) (bitsWord t <<< 1), crcStep_shift (bitsWord_high (by omega))]

theorem bitsWord_inj {l m : List Bool} (h : l.length = m.length) (hl : l.length ≤ 32) (he : bitsWord l = bitsWord m) : l = m := by
  induction l generalizing m with
  | nil => cases m with
    | nil => rfl
    | cons _ _ => simp at h
  | cons b t ih =>
    cases m with
    | nil => simp at h
    | cons b' t' =>
      simp only [List.length_cons, Nat.add_right_cancel_iff] at h
      simp only [List.length_cons] at hl
      unfold bitsWord at he
      have hb : b = b' := by
        have := congrArg (fun v => v.getLsbD 0) he
        simp only [BitVec.getLsbD_xor, BitVec.getLsbD_shiftLeft] at this
        cases b <;> cases b' <;> simp at this <;> rfl
      subst hb
      have hs : bitsWord t <<< 1 = bitsWord t' <<< 1 := by
        have := congrArg (fun v => v ^^^ (if b then 1#32 else (0 : BitVec 32))) he
        simp only [BitVec.xor_assoc, BitVec.xor_self, BitVec.xor_zero] at this
        exact this
      have := congrArg crcStep hs
      rw [crcStep_shift (bitsWord_high (by omega)), crcStep_shift (bitsWord_high (by omega))] at this
      rw [ih h (by omega) this]

theorem byteBits_length (b : UInt8) : (byteBits b).length = 8 := by simp [byteBits]

theorem byteBits_word : ∀ b : UInt8, bitsWord (byteBits b) = BitVec.ofNat 32 b.toNat := by
  have : ∀ n : Fin 256, bitsWord (byteBits (UInt8.ofNat n.1)) = BitVec.ofNat 32 (UInt8.ofNat n.1).toNat := by decide +kernel
  intro b
  have h := this ⟨b.toNat, b.toNat_lt⟩
  simpa using h

theorem crcByte_bits (c : BitVec 32) (b : UInt8) : crcByte c b = (byteBits b).foldl crcBit c := by
  rw [foldl_crcBit (by rw [byteBits_length]; decide), byteBits_length, byteBits_word]
  rfl

/-- The bits of a file, in the order in which they enter the checksum. -/
def fileBits (d : Bytes) : List Bool := d.flatMap byteBits

theorem foldl_bits (d : Bytes) (c : BitVec 32) : d.foldl crcByte c = (fileBits d).foldl crcBit c := by
  induction d generalizing c with
  | nil => rfl
  | cons b t ih =>
    unfold fileBits at ih ⊢
    rw [List.foldl_cons, List.flatMap_cons, List.foldl_append, ← crcByte_bits, ih]

theorem foldl_crcBit_xor (l : List Bool) (s t : BitVec 32) : l.foldl crcBit (s ^^^ t) = l.foldl crcBit s ^^^ zeros l.length t := by
  induction l generalizing s t with
  | nil => rfl
  | cons b l ih =>
    simp only [List.foldl_cons, List.length_cons, zeros]
    rw [← ih]
    congr 1
    unfold crcBit
    rw [BitVec.xor_assoc, BitVec.xor_comm t, ← BitVec.xor_assoc, crcStep_xor]

theorem fileBits_length (d : Bytes) : (fileBits d).length = 8 * d.length := by
  induction d with
  | nil => rfl
  | cons b t ih =>
    unfold fileBits at ih ⊢
    rw [List.flatMap_cons, List.length_append, ih, byteBits_length, List.length_cons]; omega

theorem crc32_bits (d : Bytes) : crc32 d 0 = ~~~ ((fileBits d).foldl crcBit (~~~ 0)) := by
  unfold crc32; rw [foldl_bits]

/-- The bits after a difference. -/
theorem suffix_inj {l : List Bool} {s t : BitVec 32} (h : l.foldl crcBit s = l.foldl crcBit t) : s = t := by
  have := foldl_crcBit_xor l s (s ^^^ t)
  rw [← BitVec.xor_assoc, BitVec.xor_self] at this
  have e : (0#32 ^^^ t : BitVec 32) = t := BitVec.zero_xor
  rw [e, h] at this
  have h0 : zeros l.length (s ^^^ t) = 0 := by
    have h2 := congrArg (fun v => l.foldl crcBit t ^^^ v) this
    simp only [← BitVec.xor_assoc, BitVec.xor_self] at h2
    rw [show (0#32 ^^^ zeros l.length (s ^^^ t)) = zeros l.length (s ^^^ t) from BitVec.zero_xor] at h2
    exact h2.symm
  exact xor_eq_zero32 (zeros_eq_zero h0)

end Rescene
