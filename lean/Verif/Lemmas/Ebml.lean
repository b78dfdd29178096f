import Verif.Spec.Ebml
import Verif.Lemmas.Bytes
namespace Rescene
open Spec

theorem be_succ (n N : Nat) : be (n + 1) N = UInt8.ofNat (N / 256 ^ n) :: be n N := by
  induction n generalizing N with
  | zero => simp [be, le]
  | succ n ih =>
    have h1 : be (n + 1 + 1) N = be (n + 1) (N / 256) ++ [UInt8.ofNat N] := by
      simp [be, le]
    have h2 : be (n + 1) N = be n (N / 256) ++ [UInt8.ofNat N] := by
      simp [be, le]
    rw [h1, ih, h2, Nat.div_div_eq_div_mul, Nat.pow_succ, Nat.mul_comm (256 ^ n)]
    rfl

theorem step256 (size N n : Nat) :
    ((size <<< 8) + (UInt8.ofNat (N / 256 ^ n)).toNat) * 256 ^ n + N % 256 ^ n =
      size * 256 ^ (n + 1) + N % 256 ^ (n + 1) := by
  have h1 : (256:Nat) ^ (n + 1) = 256 ^ n * 256 := Nat.pow_succ ..
  have h2 : (UInt8.ofNat (N / 256 ^ n)).toNat = N / 256 ^ n % 256 := UInt8.toNat_ofNat'
  have h3 : size <<< 8 = size * 256 := Nat.shiftLeft_eq ..
  rw [h1, h2, h3, Nat.mod_mul, Nat.add_mul, Nat.mul_assoc, Nat.mul_comm 256 (256 ^ n),
    Nat.mul_comm (N / 256 ^ n % 256)]
  omega

theorem ebmlStreamLoop_be (n N size : Nat) (s : Bytes) :
    ebmlStreamLoop size n (be n N ++ s) = .ok (size * 256 ^ n + N % 256 ^ n, s) := by
  induction n generalizing size with
  | zero => simp [ebmlStreamLoop, be, le, Nat.mod_one]
  | succ n ih =>
    simp only [be_succ, List.cons_append, ebmlStreamLoop, readByte, ok_bind]
    rw [ih]
    congr 2
    exact step256 ..

theorem unpackBeAt_one {pre s : Bytes} {x : UInt8} {off : Nat} (h : pre.length = off) :
    unpackBeAt 1 (pre ++ x :: s) off = .ok x.toNat := by
  subst h
  unfold unpackBeAt
  rw [if_pos (by simp)]
  have : slice (pre ++ x :: s) pre.length (pre.length + 1) = [x] := by
    simp [slice, List.take_append]
  rw [this]; simp [ofBe, ofLe]

theorem ebmlUIntLoop_be (n N size : Nat) (pre s : Bytes) {off : Nat} (h : pre.length = off) :
    ebmlUIntLoop (pre ++ (be n N ++ s)) size n off = .ok (size * 256 ^ n + N % 256 ^ n) := by
  induction n generalizing size pre off with
  | zero => simp [ebmlUIntLoop, Nat.mod_one]
  | succ n ih =>
    simp only [be_succ, List.cons_append, ebmlUIntLoop]
    rw [unpackBeAt_one h, ok_bind]
    have := ih ((size <<< 8) + (UInt8.ofNat (N / 256 ^ n)).toNat) (pre ++ [UInt8.ofNat (N / 256 ^ n)])
      (off := off + 1) (by simp [h])
    simp only [List.append_assoc, List.cons_append, List.nil_append] at this
    rw [this]
    congr 1
    exact step256 ..

/-- Every first byte: its length and the bits of the value in it. -/
theorem firstByte : ∀ n, 1 ≤ n → n ≤ 8 → ∀ x : Nat, x < 2 ^ (8 - n) →
    uintLength (2 ^ (8 - n) + x) = n ∧ (2 ^ (8 - n) + x) &&& (0xFF >>> n) = x := by
  have h : ∀ n, n < 9 → 1 ≤ n → ∀ x : Nat, x < 2 ^ (8 - n) →
    uintLength (2 ^ (8 - n) + x) = n ∧ (2 ^ (8 - n) + x) &&& (0xFF >>> n) = x := by decide +kernel
  intro n h1 h2 x hx
  exact h n (by omega) h1 x hx

/-- The shape of an EBML integer. -/
theorem vint_shape {n v : Nat} {b : Bytes} (h : IsVint n v b) :
    ∃ x : UInt8, b = x :: be (n - 1) (2 ^ (7 * n) + v) ∧ uintLength x.toNat = n ∧
      (x.toNat &&& (0xFF >>> n)) * 256 ^ (n - 1) + (2 ^ (7 * n) + v) % 256 ^ (n - 1) = v := by
  obtain ⟨h1, h2, h3, rfl⟩ := h
  have hp : (2:Nat) ^ (7 * n) = 2 ^ (8 - n) * 256 ^ (n - 1) := by
    rw [show (256:Nat) = 2 ^ 8 from rfl, ← Nat.pow_mul, ← Nat.pow_add]; congr 1; omega
  have hpos : 0 < 256 ^ (n - 1) := Nat.pow_pos (by decide)
  have hdiv : (2 ^ (7 * n) + v) / 256 ^ (n - 1) = 2 ^ (8 - n) + v / 256 ^ (n - 1) := by
    rw [hp, Nat.mul_comm, Nat.mul_add_div hpos]
  have hmod : (2 ^ (7 * n) + v) % 256 ^ (n - 1) = v % 256 ^ (n - 1) := by
    rw [hp, Nat.mul_comm, Nat.mul_add_mod]
  have hx : v / 256 ^ (n - 1) < 2 ^ (8 - n) := by
    rw [Nat.div_lt_iff_lt_mul hpos, ← hp]; exact h3
  obtain ⟨f1, f2⟩ := firstByte n h1 h2 _ hx
  have hlt : 2 ^ (8 - n) + v / 256 ^ (n - 1) < 256 := by
    have : (2:Nat) ^ (8 - n) ≤ 2 ^ 7 := Nat.pow_le_pow_right (by decide) (by omega)
    omega
  refine ⟨UInt8.ofNat ((2 ^ (7 * n) + v) / 256 ^ (n - 1)), ?_, ?_, ?_⟩
  · have := be_succ (n - 1) (2 ^ (7 * n) + v)
    rwa [Nat.sub_add_cancel h1] at this
  · rw [UInt8.toNat_ofNat', hdiv, Nat.mod_eq_of_lt hlt, f1]
  · rw [UInt8.toNat_ofNat', hdiv, Nat.mod_eq_of_lt hlt, f2, hmod, Nat.mul_comm]
    exact Nat.div_add_mod ..

theorem getEbmlUIntStream_vint {n v : Nat} {b : Bytes} (h : IsVint n v b) (s : Bytes) :
    getEbmlUIntStream (b ++ s) = .ok (v, n, s) := by
  obtain ⟨x, rfl, h1, h2⟩ := vint_shape h
  simp only [getEbmlUIntStream, List.cons_append, readByte, ok_bind, h1]
  rw [ebmlStreamLoop_be, ok_bind, h2]
  rfl

theorem getEbmlUInt_vint {n v : Nat} {b : Bytes} (h : IsVint n v b) (pre s : Bytes) :
    getEbmlUInt (pre ++ (b ++ s)) pre.length n = .ok v := by
  obtain ⟨x, rfl, h1, h2⟩ := vint_shape h
  simp only [getEbmlUInt, List.cons_append]
  rw [unpackBeAt_one rfl, ok_bind]
  have := ebmlUIntLoop_be (n - 1) (2 ^ (7 * n) + v) (x.toNat &&& (0xFF >>> n)) (pre ++ [x]) s
    (off := pre.length + 1) (by simp)
  simp only [List.append_assoc, List.cons_append, List.nil_append] at this
  rw [this, h2]

theorem vint_length {n v : Nat} {b : Bytes} (h : IsVint n v b) : b.length = n := by
  rw [h.2.2.2, be_length]

theorem be_eq_map (n N : Nat) :
    be n N = (List.range n).map fun j => UInt8.ofNat ((N >>> ((n - (j + 1)) * 8)) &&& 0xFF) := by
  induction n with
  | zero => rfl
  | succ n ih =>
    rw [be_succ, List.range_succ_eq_map, List.map_cons, List.map_map, ih]
    have e : ∀ m : Nat, UInt8.ofNat (m &&& 0xFF) = UInt8.ofNat m := by
      intro m
      apply UInt8.toNat_inj.mp
      rw [UInt8.toNat_ofNat', UInt8.toNat_ofNat', show (0xFF:Nat) = 2 ^ 8 - 1 from rfl,
        Nat.and_two_pow_sub_one_eq_mod, Nat.mod_mod]
    congr 1
    · rw [e, Nat.shiftRight_eq_div_pow, show (256:Nat) = 2 ^ 8 from rfl, ← Nat.pow_mul]
      congr 3; simp; omega
    · apply List.map_congr_left
      intro j _
      simp only [Function.comp]
      congr 4; omega

theorem ebmlDescriptor_some {n i : Nat} (h : ebmlDescriptor n = some i) :
    1 ≤ i ∧ i ≤ 7 ∧ n < 2 ^ (7 * i) := by
  have h1 := List.find?_some h
  have h2 := List.mem_of_find?_eq_some h
  simp only [decide_eq_true_eq] at h1
  rw [Nat.one_shiftLeft, show i * 8 - i = 7 * i by omega] at h1
  simp only [List.mem_cons, List.not_mem_nil, or_false] at h2
  exact ⟨by omega, by omega, h1⟩

theorem ebmlDescriptor_none {n : Nat} : ebmlDescriptor n = none ↔ ¬ n < 2 ^ 49 := by
  unfold ebmlDescriptor
  simp [List.find?_eq_none]
  omega

theorem makeEbmlUInt_vint {n : Nat} {b : Bytes} (h : makeEbmlUInt n = .ok b) :
    ∃ i, IsVint i n b ∧ i ≤ 7 := by
  unfold makeEbmlUInt at h
  cases hd : ebmlDescriptor n with
  | none => simp [hd] at h
  | some i =>
    simp only [hd, Except.ok.injEq] at h
    obtain ⟨h1, h2, h3⟩ := ebmlDescriptor_some hd
    refine ⟨i, ⟨h1, by omega, h3, ?_⟩, h2⟩
    rw [← h, be_eq_map, Nat.one_shiftLeft, show i * 8 - i = 7 * i by omega, Nat.or_comm]
    have := Nat.two_pow_add_eq_or_of_lt h3 1
    rw [Nat.mul_one] at this
    rw [this]

theorem xiphRead_run (k : Nat) (r : UInt8) (hr : r.toNat < 255) (s : Bytes) :
    xiphRead (List.replicate k 0xFF ++ [r] ++ s) = .ok (255 * k + r.toNat, k + 1, s) := by
  induction k with
  | zero =>
    simp only [List.replicate_zero, List.nil_append, List.cons_append, xiphRead]
    rw [if_neg (by omega)]; simp
  | succ k ih =>
    simp only [List.replicate_succ, List.cons_append, xiphRead]
    rw [if_pos (by rfl), ih, ok_bind]
    simp only [pure_eq_ok]
    congr 2
    omega

theorem xiphRead_size (n : Nat) (s : Bytes) :
    xiphRead (xiphSize n ++ s) = .ok (n, (xiphSize n).length, s) := by
  have h : (UInt8.ofNat (n % 255)).toNat = n % 255 := by
    rw [UInt8.toNat_ofNat']; omega
  unfold xiphSize
  rw [xiphRead_run _ _ (by omega), h]
  congr 2
  · omega
  · simp

theorem sumInt_append (a b : List Int) : sumInt (a ++ b) = sumInt a + sumInt b := by
  unfold sumInt
  induction a with
  | nil => simp
  | cons x a ih => simp only [List.cons_append, List.foldr_cons, ih]; omega

@[simp] theorem sumInt_nil : sumInt [] = 0 := rfl
@[simp] theorem sumInt_cons (x : Int) (l : List Int) : sumInt (x :: l) = x + sumInt l := rfl

theorem sumInt_cast (l : List Nat) : sumInt (l.map Int.ofNat) = (l.sum : Int) := by
  induction l with
  | nil => rfl
  | cons x l ih => simp [ih]

theorem laceLoop_xiph {count : Nat} {D : Int} (l : List Nat) (s : Bytes) (sizes : List Int) (c : Nat)
    (hc : sizes.length + l.length + 1 = count) :
    laceLoop .xiph count D (l.length + 1) sizes c (l.flatMap xiphSize ++ s) =
      .ok (sizes ++ l.map Int.ofNat ++
        [D - (c + (l.flatMap xiphSize).length : Nat) - sumInt (sizes ++ l.map Int.ofNat)],
        c + (l.flatMap xiphSize).length, s) := by
  induction l generalizing sizes c with
  | nil =>
    simp only [List.length_nil, laceLoop, List.flatMap_nil, List.nil_append, List.map_nil,
      List.append_nil]
    simp only [List.length_nil] at hc
    rw [if_neg (by omega)]
    rfl
  | cons x l ih =>
    simp only [List.length_cons] at hc
    rw [List.length_cons, List.flatMap_cons, List.append_assoc, laceLoop]
    rw [if_pos (by omega), xiphRead_size, ok_bind]
    have h := ih (sizes ++ [(x : Int)]) (c + (xiphSize x).length) (by simp; omega)
    simp only [List.append_assoc] at h
    dsimp only
    rw [h]
    simp [Nat.add_assoc]

theorem signedVint_read {n : Nat} {d : Int} {b : Bytes} (h : IsSignedVint n d b) (s : Bytes) :
    ∃ v : Nat, getEbmlUIntStream (b ++ s) = .ok (v, n, s) ∧ n ≠ 0 ∧ b.length = n ∧
      (v : Int) - ((1 <<< (n * 8 - (n + 1)) : Nat) - 1) = d := by
  obtain ⟨v, hv, rfl⟩ := h
  refine ⟨v, getEbmlUIntStream_vint hv s, by have := hv.1; omega, vint_length hv, ?_⟩
  rw [Nat.one_shiftLeft, show n * 8 - (n + 1) = 7 * n - 1 by omega]
  simp

theorem laceLoop_ebml {count : Nat} {D : Int} (l : List Nat) (s : Bytes) (sizes : List Int) (prev : Nat)
    (c : Nat) (b : Bytes) (hd : Diffs prev l b)
    (hc : sizes.length + 1 + l.length + 1 = count) :
    laceLoop .ebml count D (l.length + 1) (sizes ++ [(prev : Int)]) c (b ++ s) =
      .ok (sizes ++ [(prev : Int)] ++ l.map Int.ofNat ++
        [D - (c + b.length : Nat) - sumInt (sizes ++ [(prev : Int)] ++ l.map Int.ofNat)],
        c + b.length, s) := by
  induction l generalizing sizes c prev b with
  | nil =>
    simp only [Diffs] at hd; subst hd
    simp only [List.length_nil, laceLoop, List.nil_append, List.map_nil,
      List.append_nil, List.getLast?_append, List.getLast?_singleton, Option.some_or]
    simp only [List.length_nil] at hc
    rw [if_neg (by simp; omega)]
    rfl
  | cons x l ih =>
    obtain ⟨n, b1, b2, h1, h2, rfl⟩ := hd
    obtain ⟨v, hv, hn, hl, hval⟩ := signedVint_read h1 (b2 ++ s)
    simp only [List.length_cons] at hc
    rw [List.length_cons, List.append_assoc, laceLoop]
    simp only [List.append_assoc, List.getLast?_append,
      List.getLast?_singleton, Option.some_or]
    rw [if_pos (by simp; omega), hv, ok_bind]
    simp only [hn, if_false, hval]
    have e : (prev : Int) + ((x : Int) - prev) = x := by omega
    rw [e]
    have h := ih (sizes ++ [(prev : Int)]) x (c + n) b2 h2 (by simp; omega)
    simp only [List.append_assoc] at h
    rw [h, ← hl]
    simp [Nat.add_assoc]

theorem laceLoop_fixed (count : Nat) (D : Int) (k : Nat) (sizes : List Int) (c : Nat) (s : Bytes) :
    laceLoop .fixed count D k sizes c s =
      .ok (sizes ++ List.replicate k (D.fdiv count), c, s) := by
  induction k generalizing sizes with
  | zero => simp [laceLoop]
  | succ k ih => simp [laceLoop, ih, List.replicate_succ]

/-- Whenever the sizes of a block with more than one frame are decoded and the lacing is
not the fixed one, they cover the block. -/
theorem laceLoop_sum {t : Lace} {count : Nat} {D : Int} (ht : t = .xiph ∨ t = .ebml) (k : Nat) :
    ∀ (sizes : List Int) (c : Nat) (s : Bytes) (r : List Int) (c' : Nat) (s' : Bytes),
    sizes.length + (k + 1) = count → 1 < count →
    laceLoop t count D (k + 1) sizes c s = .ok (r, c', s') →
    sumInt r + c' = D ∧ r.length = count := by
  induction k with
  | zero =>
    intro sizes c s r c' s' hc h1 h
    have hne : sizes.length ≠ 0 := by omega
    have hlt : ¬ sizes.length < count - 1 := by omega
    rcases ht with rfl | rfl
    · simp only [laceLoop, hlt, if_false, Except.ok.injEq, Prod.mk.injEq] at h
      obtain ⟨rfl, rfl, rfl⟩ := h
      refine ⟨?_, by simp; omega⟩
      rw [sumInt_append]; simp; omega
    · cases hg : sizes.getLast? with
      | none => rw [List.getLast?_eq_none_iff] at hg; subst hg; simp at hne
      | some p =>
        simp only [laceLoop, hg, hlt, if_false, Except.ok.injEq, Prod.mk.injEq] at h
        obtain ⟨rfl, rfl, rfl⟩ := h
        refine ⟨?_, by simp; omega⟩
        rw [sumInt_append]; simp; omega
  | succ k ih =>
    intro sizes c s r c' s' hc h1 h
    have hlt : sizes.length < count - 1 := by omega
    have hc' : ∀ x : Int, (sizes ++ [x]).length + (k + 1) = count := by intro x; simp; omega
    rcases ht with rfl | rfl
    · rw [laceLoop, if_pos hlt] at h
      simp only [bind_eq_ok] at h
      obtain ⟨⟨v, n, s2⟩, _, h⟩ := h
      exact ih _ _ _ _ _ _ (hc' _) h1 h
    · rw [laceLoop] at h
      cases hg : sizes.getLast? with
      | none =>
        simp only [hg, bind_eq_ok] at h
        obtain ⟨⟨v, n, s2⟩, _, h⟩ := h
        exact ih _ _ _ _ _ _ (hc' _) h1 h
      | some p =>
        simp only [hg, hlt, if_true, bind_eq_ok] at h
        obtain ⟨⟨v, n, s2⟩, _, h⟩ := h
        simp only at h
        split at h
        · simp at h
        · exact ih _ _ _ _ _ _ (hc' _) h1 h

end Rescene
