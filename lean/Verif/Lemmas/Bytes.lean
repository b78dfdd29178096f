import Verif.Model.Bytes
namespace Rescene

@[simp] theorem le_length (k n : Nat) : (le k n).length = k := by
  induction k generalizing n with
  | zero => rfl
  | succ k ih => simp [le, ih]

theorem ofLe_le (k n : Nat) : ofLe (le k n) = n % 256 ^ k := by
  induction k generalizing n with
  | zero => simp [le, ofLe, Nat.mod_one]
  | succ k ih =>
    simp only [le, ofLe, ih, UInt8.toNat_ofNat']
    have h : (256 : Nat) ^ (k + 1) = 256 * 256 ^ k := by rw [Nat.pow_succ, Nat.mul_comm]
    rw [h, Nat.mod_mul]

theorem ofLe_le_of_lt {k n : Nat} (h : n < 256 ^ k) : ofLe (le k n) = n := by
  rw [ofLe_le, Nat.mod_eq_of_lt h]

theorem ofLe_lt (bs : Bytes) : ofLe bs < 256 ^ bs.length := by
  induction bs with
  | nil => simp [ofLe]
  | cons b bs ih =>
    simp only [ofLe, List.length_cons, Nat.pow_succ]
    have := b.toNat_lt
    omega

theorem le_ofLe (bs : Bytes) : le bs.length (ofLe bs) = bs := by
  induction bs with
  | nil => rfl
  | cons b bs ih =>
    have hb := b.toNat_lt
    simp only [List.length_cons, le, ofLe]
    have h1 : (b.toNat + 256 * ofLe bs) / 256 = ofLe bs := by omega
    rw [h1, ih]
    congr 1
    apply UInt8.toNat_inj.mp
    rw [UInt8.toNat_ofNat']
    omega

@[simp] theorem be_length (k n : Nat) : (be k n).length = k := by simp [be]

theorem ofBe_be_of_lt {k n : Nat} (h : n < 256 ^ k) : ofBe (be k n) = n := by
  simp [ofBe, be, ofLe_le_of_lt h]

theorem be_ofBe (bs : Bytes) : be bs.length (ofBe bs) = bs := by
  have := le_ofLe bs.reverse
  simp only [List.length_reverse] at this
  simp [be, ofBe, this]

theorem ofBe_lt (bs : Bytes) : ofBe bs < 256 ^ bs.length := by
  have := ofLe_lt bs.reverse
  simpa [ofBe] using this

theorem pack_ok {k n : Nat} (h : n < 256 ^ k) : pack k n = .ok (le k n) := by simp [pack, h]

theorem pack_eq_ok {k n : Nat} {b : Bytes} : pack k n = .ok b ↔ n < 256 ^ k ∧ b = le k n := by
  unfold pack
  split <;> simp [*, eq_comm]

theorem pack_eq_error {k n : Nat} {e : Err} :
    pack k n = .error e ↔ ¬ n < 256 ^ k ∧ e = .structError := by
  unfold pack
  split <;> simp [*, eq_comm]

/-- Unpacking a field that sits at a known place. -/
theorem unpackAt_append {k n off : Nat} (pre post : Bytes) (hoff : pre.length = off)
    (h : n < 256 ^ k) : unpackAt k (pre ++ (le k n ++ post)) off = .ok n := by
  subst hoff
  have : slice (pre ++ (le k n ++ post)) pre.length (pre.length + k) = le k n := by
    simp [slice, List.take_append]
  simp only [unpackAt, List.length_append, le_length, this, ofLe_le_of_lt h]
  simp

theorem unpackAt_ok_iff {k off : Nat} {buf : Bytes} {n : Nat} :
    unpackAt k buf off = .ok n ↔ off + k ≤ buf.length ∧ n = ofLe (slice buf off (off + k)) := by
  unfold unpackAt
  split <;> simp [*, eq_comm]

theorem slice_length {buf : Bytes} {a b : Nat} (h : b ≤ buf.length) : (slice buf a b).length = b - a := by
  simp [slice]; omega

theorem unpackAt_lt {k off : Nat} {buf : Bytes} {n : Nat} (h : unpackAt k buf off = .ok n) :
    n < 256 ^ k := by
  rw [unpackAt_ok_iff] at h
  obtain ⟨h1, rfl⟩ := h
  have := ofLe_lt (slice buf off (off + k))
  rwa [slice_length h1, Nat.add_sub_cancel_left] at this

@[simp] theorem readAt_zero (data : Bytes) (n : Nat) : readAt data 0 n = data.take n := rfl

theorem readAt_length (data : Bytes) (p n : Nat) :
    (readAt data p n).length = min n (data.length - p) := by simp [readAt]

/-- Reading at the end of a known prefix. -/
theorem readAt_append {p n : Nat} (pre mid post : Bytes) (hp : pre.length = p) (hn : mid.length = n) :
    readAt (pre ++ (mid ++ post)) p n = mid := by
  subst hp hn; simp [readAt]

theorem readAt_append_drop (pre rest : Bytes) (n : Nat) :
    readAt (pre ++ rest) pre.length n = rest.take n := by simp [readAt]

end Rescene
