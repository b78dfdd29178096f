import Verif.Model.Reader
import Verif.Lemmas.Str
namespace Rescene

theorem unpackAt_skip {k off : Nat} {a b : Bytes} (h : a.length ≤ off) :
    unpackAt k (a ++ b) off = unpackAt k b (off - a.length) := by
  unfold unpackAt slice
  have e : (a ++ b).take (off + k) = a ++ b.take (off - a.length + k) := by
    rw [List.take_append, List.take_of_length_le (by omega)]
    congr 2; omega
  have e2 : (a ++ b.take (off - a.length + k)).drop off =
      (b.take (off - a.length + k)).drop (off - a.length) := by
    rw [List.drop_append, List.drop_of_length_le h, List.nil_append]
  rw [e, e2]
  have : (off + k ≤ (a ++ b).length) = (off - a.length + k ≤ b.length) := by
    simp only [List.length_append, eq_iff_iff]; omega
  simp only [this]

theorem unpackAt_here {k n : Nat} {b : Bytes} (h : n < 256 ^ k) :
    unpackAt k (le k n ++ b) 0 = .ok n := by
  simpa using unpackAt_append [] b rfl h

theorem unpackAt_here' {k n : Nat} (h : n < 256 ^ k) :
    unpackAt k (le k n) 0 = .ok n := by
  simpa using unpackAt_here (b := []) h

theorem unpackAt_left {k off : Nat} {a b : Bytes} (h : off + k ≤ a.length) :
    unpackAt k (a ++ b) off = unpackAt k a off := by
  unfold unpackAt slice
  rw [List.take_append_of_le_length h]
  simp only [List.length_append, h, if_true]
  rw [if_pos (by omega)]

theorem unpackAt_take {k off n : Nat} {a : Bytes} (h : off + k ≤ n) (hn : n ≤ a.length) :
    unpackAt k (a.take n) off = unpackAt k a off := by
  have := unpackAt_left (k := k) (off := off) (a := a.take n) (b := a.drop n) (by simp; omega)
  rw [← this, List.take_append_drop]

theorem slice_skip {i j : Nat} {a b : Bytes} (h : a.length ≤ i) (hij : i ≤ j) :
    slice (a ++ b) i j = slice b (i - a.length) (j - a.length) := by
  unfold slice
  rw [List.take_append, List.take_of_length_le (by omega), List.drop_append,
    List.drop_of_length_le h, List.nil_append]

theorem slice_zero_append {n : Nat} {a b : Bytes} (h : a.length = n) : slice (a ++ b) 0 n = a := by
  subst h; simp [slice]

theorem slice_zero_self {n : Nat} {a : Bytes} (h : a.length = n) : slice a 0 n = a := by
  subst h; simp [slice]

/-- What a successful `mkBlock` read. -/
theorem mkBlock_ok_iff {buf : Bytes} {p : Nat} {b : Block} :
    mkBlock buf p = .ok b ↔
      unpackAt 2 buf 0 = .ok b.crc ∧ unpackAt 1 buf 2 = .ok b.btype ∧
      unpackAt 2 buf 3 = .ok b.flags ∧ unpackAt 2 buf 5 = .ok b.hsize ∧
      ¬ (b.btype = 0x6A ∧ p = 0) ∧ b.raw = buf ∧ b.pos = p ∧
      ∃ add, (if hasFlag b.flags 0x8000 then unpackAt 4 buf 7 else .ok 0 : Res Nat) = .ok add ∧
        mkKind buf b.btype b.flags add = .ok (b.addSize, b.kind) := by
  obtain ⟨p', crc, bt, fl, hs, ad, raw, k⟩ := b
  unfold mkBlock
  constructor
  · intro h
    simp only [bind_eq_ok] at h
    obtain ⟨c, hc, t, ht, f, hf, s, hs, h⟩ := h
    split at h
    · simp at h
    · simp only [bind_eq_ok] at h
      obtain ⟨a, ha, ⟨a', k'⟩, hk, h⟩ := h
      simp only [pure_eq_ok, Except.ok.injEq, Block.mk.injEq] at h
      obtain ⟨rfl, rfl, rfl, rfl, rfl, rfl, rfl, rfl⟩ := h
      exact ⟨hc, ht, hf, hs, by assumption, rfl, rfl, a, ha, hk⟩
  · rintro ⟨h1, h2, h3, h4, h5, rfl, rfl, a, ha, hk⟩
    simp only at *
    simp only [h1, h2, h3, h4, ok_bind]
    rw [if_neg h5, ha]
    simp only [ok_bind, hk, pure_eq_ok]

/-- `mkBlock` only uses the position to record it (and to reject stored files at 0). -/
theorem mkBlock_pos {buf : Bytes} {p q : Nat} {b : Block} (hq : q ≠ 0) (h : mkBlock buf p = .ok b) :
    mkBlock buf q = .ok { b with pos := q } := by
  rw [mkBlock_ok_iff] at h ⊢
  obtain ⟨h1, h2, h3, h4, _, h6, _, h8⟩ := h
  exact ⟨h1, h2, h3, h4, fun h => hq h.2, h6, rfl, h8⟩

end Rescene
