import Verif.Model.Crc
namespace Rescene

theorem crcStep_xor (x y : BitVec 32) : crcStep (x ^^^ y) = crcStep x ^^^ crcStep y := by
  unfold crcStep
  rw [BitVec.getLsbD_xor, BitVec.ushiftRight_xor_distrib]
  have h3 : ∀ a b c : BitVec 32, a ^^^ c ^^^ (b ^^^ c) = a ^^^ b := by
    intro a b c
    rw [BitVec.xor_assoc, ← BitVec.xor_assoc c, BitVec.xor_comm c b, BitVec.xor_assoc b c c, BitVec.xor_self,
      BitVec.xor_zero]
  cases x.getLsbD 0 <;> cases y.getLsbD 0 <;> simp only [Bool.xor_false, Bool.xor_true, Bool.not_true,
    Bool.not_false, Bool.false_eq_true, if_true, if_false]
  · rw [BitVec.xor_assoc]
  · rw [BitVec.xor_assoc, BitVec.xor_comm (y >>> 1), ← BitVec.xor_assoc]
  · rw [h3]

/-- Linear over GF(2). -/
def Lin (f : BitVec 32 → BitVec 32) : Prop := ∀ x y, f (x ^^^ y) = f x ^^^ f y

theorem Lin.zero {f : BitVec 32 → BitVec 32} (h : Lin f) : f 0 = 0 := by
  have := h 0 0
  rw [BitVec.xor_self, BitVec.xor_self] at this
  exact this

theorem Lin.comp {f g : BitVec 32 → BitVec 32} (hf : Lin f) (hg : Lin g) : Lin (fun x => f (g x)) := by
  intro x y; simp only [hg x y]; exact hf _ _

/-- `n` zero bits. -/
def zeros : Nat → BitVec 32 → BitVec 32
  | 0, c => c
  | n + 1, c => zeros n (crcStep c)

theorem zeros_add (m n : Nat) (c : BitVec 32) : zeros (m + n) c = zeros n (zeros m c) := by
  induction m generalizing c with
  | zero => simp [zeros]
  | succ m ih => rw [show m + 1 + n = (m + n) + 1 by omega, zeros, ih, zeros]

theorem zeros_lin (n : Nat) : Lin (zeros n) := by
  induction n with
  | zero => intro x y; rfl
  | succ n ih => intro x y; simp only [zeros, crcStep_xor]; exact ih _ _

theorem crcStep8_zeros (c : BitVec 32) : crcStep8 c = zeros 8 c := rfl

theorem crcByte_xor (s t : BitVec 32) (b : UInt8) : crcByte (s ^^^ t) b = crcByte s b ^^^ zeros 8 t := by
  unfold crcByte
  rw [crcStep8_zeros, crcStep8_zeros, BitVec.xor_assoc, BitVec.xor_comm t, ← BitVec.xor_assoc, zeros_lin]

theorem foldl_crc_xor (d : Bytes) (s t : BitVec 32) :
    d.foldl crcByte (s ^^^ t) = d.foldl crcByte s ^^^ zeros (8 * d.length) t := by
  induction d generalizing s t with
  | nil => rfl
  | cons b d ih =>
    simp only [List.foldl_cons, List.length_cons]
    rw [crcByte_xor, ih, show 8 * (d.length + 1) = 8 + 8 * d.length by omega, zeros_add]

theorem not_xor_eq (a b : BitVec 32) : ~~~ (a ^^^ b) = ~~~ a ^^^ b := by
  rw [← BitVec.xor_allOnes, ← BitVec.xor_allOnes (x := a), BitVec.xor_assoc, BitVec.xor_assoc, BitVec.xor_comm b]

theorem crc32_append (a b : Bytes) (s : BitVec 32) : crc32 (a ++ b) s = crc32 b (crc32 a s) := by
  unfold crc32
  rw [List.foldl_append, BitVec.not_not]

/-- Concatenation in terms of the two separate checksums. -/
theorem crc32_concat (a b : Bytes) :
    crc32 (a ++ b) 0 = zeros (8 * b.length) (crc32 a 0) ^^^ crc32 b 0 := by
  have h := foldl_crc_xor b (~~~ 0) (crc32 a 0)
  have e : ~~~ (0 : BitVec 32) ^^^ crc32 a 0 = ~~~ (crc32 a 0) := by
    rw [← not_xor_eq]; congr 1; exact BitVec.zero_xor
  rw [e] at h
  rw [crc32_append]
  have u : ∀ s, crc32 b s = ~~~ (b.foldl crcByte (~~~ s)) := fun _ => rfl
  rw [u (crc32 a 0), h, not_xor_eq, ← u, BitVec.xor_comm]

theorem xor_low_bit (v : BitVec 32) :
    v = (if v.getLsbD 0 then 1#32 else 0) ^^^ ((v >>> 1) <<< 1) := by
  apply BitVec.eq_of_getLsbD_eq
  intro i hi
  rw [BitVec.getLsbD_xor, BitVec.getLsbD_shiftLeft, BitVec.getLsbD_ushiftRight]
  cases i with
  | zero => cases h : v.getLsbD 0 <;> simp
  | succ i =>
    have : (if v.getLsbD 0 then 1#32 else (0 : BitVec 32)).getLsbD (i + 1) = false := by
      split <;> simp [BitVec.getLsbD_one]
    rw [this]
    simp [hi, Nat.add_comm]

theorem matrixTimes_lin {f : BitVec 32 → BitVec 32} (hf : Lin f) (m : List (BitVec 32)) (k : Nat)
    (hl : m.length + k = 32) (hm : ∀ i (h : i < m.length), m[i] = f (1#32 <<< (i + k))) (v : BitVec 32) :
    matrixTimes m v = f (v <<< k) := by
  induction m generalizing k v with
  | nil =>
    simp only [List.length_nil, Nat.zero_add] at hl
    subst hl
    have : v <<< 32 = 0#32 := by
      apply BitVec.eq_of_getLsbD_eq; intro i hi; simp [hi]
    rw [this]
    exact hf.zero.symm
  | cons row rows ih =>
    simp only [List.length_cons] at hl
    rw [matrixTimes, ih (k + 1) (by omega)]
    · have h0 := hm 0 (by simp)
      simp only [List.getElem_cons_zero, Nat.zero_add] at h0
      rw [h0]
      conv => rhs; rw [xor_low_bit v, BitVec.shiftLeft_xor_distrib, hf]
      congr 1
      · split
        · rfl
        · rw [show (0 : BitVec 32) <<< k = 0 from by simp]; exact hf.zero.symm
      · rw [← BitVec.shiftLeft_add, Nat.add_comm]
    · intro i h
      have := hm (i + 1) (by simp; omega)
      simp only [List.getElem_cons_succ] at this
      rw [this]; congr 2; omega

/-- A matrix that holds a linear operator. -/
def Represents (m : List (BitVec 32)) (f : BitVec 32 → BitVec 32) : Prop :=
  Lin f ∧ m.length = 32 ∧ ∀ i (h : i < m.length), m[i] = f (1#32 <<< i)

theorem Represents.times {m : List (BitVec 32)} {f : BitVec 32 → BitVec 32} (h : Represents m f)
    (v : BitVec 32) : matrixTimes m v = f v := by
  have := matrixTimes_lin h.1 m 0 h.2.1 h.2.2 v
  simpa using this

theorem Represents.square {m : List (BitVec 32)} {f : BitVec 32 → BitVec 32} (h : Represents m f) :
    Represents (matrixSquare m) (fun x => f (f x)) := by
  refine ⟨h.1.comp h.1, by simp [matrixSquare, h.2.1], ?_⟩
  intro i hi
  simp only [matrixSquare, List.getElem_map]
  rw [h.times, h.2.2]

theorem represents_one : Represents oneZeroBit (zeros 1) := by
  refine ⟨zeros_lin 1, by decide, ?_⟩
  have h : ∀ i : Fin oneZeroBit.length, oneZeroBit[i] = zeros 1 (1#32 <<< i.1) := by decide +kernel
  intro i hi
  exact h ⟨i, hi⟩

theorem represents_double {m : List (BitVec 32)} {n : Nat} (h : Represents m (zeros n)) :
    Represents (matrixSquare m) (zeros (2 * n)) := by
  have := h.square
  have e : (fun x => zeros n (zeros n x)) = zeros (2 * n) := by
    funext x; rw [← zeros_add]; congr 1; omega
  rwa [e] at this

theorem zeros_bit (k len : Nat) (c : BitVec 32) :
    zeros (2 * k * (len / 2)) (if len % 2 = 1 then zeros k c else c) = zeros (k * len) c := by
  have hl : 2 * k * (len / 2) = k * (2 * (len / 2)) := by rw [← Nat.mul_assoc, Nat.mul_comm k 2]
  split
  · rename_i h
    rw [← zeros_add, hl]
    congr 1
    have : len = 1 + 2 * (len / 2) := by omega
    conv => rhs; rw [this, Nat.mul_add, Nat.mul_one]
  · rename_i h
    rw [hl]; congr 2; omega

theorem combineLoop_ok (fuel : Nat) :
    ∀ (odd : List (BitVec 32)) (k : Nat) (c : BitVec 32) (len : Nat), Represents odd (zeros k) →
      len < fuel → combineLoop fuel odd c len = .ok (zeros (2 * k * len) c) := by
  induction fuel with
  | zero => intro _ _ _ _ _ h; omega
  | succ fuel ih =>
    intro odd k c len hodd hf
    rw [combineLoop]
    by_cases h0 : len = 0
    · subst h0; simp [zeros]
    · rw [if_neg h0]
      have heven := represents_double hodd
      simp only [heven.times]
      have e1 := zeros_bit (2 * k) len c
      by_cases h1 : len / 2 = 0
      · rw [if_pos h1, ← e1, h1]
        rfl
      · rw [if_neg h1]
        have hodd2 := represents_double heven
        simp only [hodd2.times]
        rw [ih _ _ _ _ hodd2 (by omega)]
        have e2 := zeros_bit (2 * (2 * k)) (len / 2) (if len % 2 = 1 then zeros (2 * k) c else c)
        rw [e2, e1]

theorem crcChunks_ok (n : Nat) (hn : 0 < n) (fuel : Nat) (d : Bytes) (c : BitVec 32) (h : d.length < fuel) :
    crcChunks n fuel d c = .ok (crc32 d c) := by
  induction fuel generalizing d c with
  | zero => omega
  | succ fuel ih =>
    unfold crcChunks
    by_cases hd : d = []
    · subst hd; simp [crc32]
    · have hl : 0 < d.length := List.length_pos_iff.mpr hd
      have hx : d.take n ≠ [] := by
        intro hx; have := congrArg List.length hx; rw [List.length_take, List.length_nil] at this; omega
      simp only [hx, if_false]
      rw [ih _ _ (by rw [List.length_drop]; omega), ← crc32_append, List.take_append_drop]

end Rescene
