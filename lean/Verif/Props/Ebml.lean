import Verif.Lemmas.Ebml
/-
C30, C31, C32: EBML integers, Matroska lacing and ID3 tag sizes.
-/
namespace Rescene.Props
open Spec

/-! ### C30 -/

/-- C30: the writer accepts exactly the numbers below 2^49. -/
theorem ebml_accepted_iff (n : Nat) : (∃ b, makeEbmlUInt n = .ok b) ↔ n < 2 ^ 49 := by
  unfold makeEbmlUInt
  cases h : ebmlDescriptor n with
  | none => simp [ebmlDescriptor_none.mp h]
  | some i =>
    simp only [Except.ok.injEq, exists_eq', true_iff]
    apply Decidable.byContradiction
    intro hn
    rw [ebmlDescriptor_none.mpr hn] at h
    simp at h

/-- C30: larger numbers (an EBML size may have 56 bits) raise `UnboundLocalError`. -/
theorem ebml_refused {n : Nat} (h : 2 ^ 49 ≤ n) : makeEbmlUInt n = .error .unboundLocal := by
  unfold makeEbmlUInt
  rw [ebmlDescriptor_none.mpr (by omega)]

/-- C30: what the writer wrote is an EBML integer, read back as the same number by the
buffer reader (with the length taken from the first byte) and by the stream reader, which
consumes exactly the bytes written, whatever follows. -/
theorem ebml_round_trip {n : Nat} {b : Bytes} (h : makeEbmlUInt n = .ok b) (pre post : Bytes) :
    (∃ k, IsVint k n b) ∧
    (∃ x ∈ b.head?, uintLength x.toNat = b.length) ∧
    getEbmlUInt (pre ++ b ++ post) pre.length b.length = .ok n ∧
    getEbmlUIntStream (b ++ post) = .ok (n, b.length, post) := by
  obtain ⟨k, hv, _⟩ := makeEbmlUInt_vint h
  rw [vint_length hv]
  refine ⟨⟨k, hv⟩, ?_, ?_, getEbmlUIntStream_vint hv post⟩
  · obtain ⟨x, hb, hx, _⟩ := vint_shape hv
    exact ⟨x, by rw [hb]; rfl, hx⟩
  · rw [List.append_assoc]; exact getEbmlUInt_vint hv pre post

/-- C30: both readers read every EBML integer of 1 to 8 bytes, also those other programs
write with more bytes than needed. -/
theorem ebml_reads_every_vint {k v : Nat} {b : Bytes} (h : IsVint k v b) (pre post : Bytes) :
    getEbmlUInt (pre ++ b ++ post) pre.length k = .ok v ∧
    getEbmlUIntStream (b ++ post) = .ok (v, k, post) := by
  rw [List.append_assoc]
  exact ⟨getEbmlUInt_vint h pre post, getEbmlUIntStream_vint h post⟩

example : makeEbmlUInt 300 = .ok [0x41, 0x2C] ∧
    getEbmlUIntStream ([0x41, 0x2C] ++ [7]) = .ok (300, 2, [7]) ∧
    getEbmlUInt ([9, 9] ++ [0x41, 0x2C] ++ [7]) 2 2 = .ok 300 := by decide
/-- 300 in four bytes. -/
example : IsVint 4 300 [0x10, 0, 1, 0x2C] := by unfold IsVint; decide

/-! ### C31 -/

/-- C31: the kind of lacing is the one the flags of the block announce. -/
theorem lacing_kind (flags : Nat) : laceCode (laceOf flags) = flags / 2 % 4 := by
  have h : flags &&& 6 = (flags % 8) &&& 6 := by
    rw [show (8:Nat) = 2 ^ 3 from rfl, ← Nat.and_two_pow_sub_one_eq_mod, Nat.and_assoc]; rfl
  have h2 : flags / 2 % 4 = flags % 8 / 2 % 4 := by omega
  rw [laceOf, h, h2]
  have : flags % 8 < 8 := by omega
  generalize flags % 8 = n at this
  rcases (by omega : n = 0 ∨ n = 1 ∨ n = 2 ∨ n = 3 ∨ n = 4 ∨ n = 5 ∨ n = 6 ∨ n = 7) with
    rfl | rfl | rfl | rfl | rfl | rfl | rfl | rfl <;> rfl

/-- C31, full statement: decoding a lacing header gives the frame sizes it was written
for.  False for blocks of one frame with fixed or EBML lacing (`lacing_one_frame`). -/
def lacing_decodes (t : Lace) : Prop :=
  ∀ (sizes : List Nat) (hdr data : Bytes), Laced t sizes hdr →
    blockFrameLengths t ((hdr.length + sizes.sum : Nat) : Int) (hdr ++ data) =
      .ok (sizes.map Int.ofNat, hdr.length, data)

theorem ofNat_pred {n : Nat} (h1 : 1 ≤ n) (h2 : n ≤ 256) : (UInt8.ofNat (n - 1)).toNat + 1 = n := by
  rw [UInt8.toNat_ofNat']; omega

theorem dropLast_concat {l : List Nat} (h : 1 ≤ l.length) : ∃ a x, l = a ++ [x] := by
  rcases List.eq_nil_or_concat l with rfl | ⟨a, x, rfl⟩
  · simp at h
  · exact ⟨a, x, by simp⟩

/-- C31: without lacing and with Xiph lacing, for every number of frames and all sizes. -/
theorem lacing_none_xiph : lacing_decodes .none ∧ lacing_decodes .xiph := by
  refine ⟨?_, ?_⟩
  · rintro sizes hdr data ⟨h1, rfl⟩
    match sizes, h1 with
    | [s], _ => simp [blockFrameLengths, laceLoop]
  · rintro sizes hdr data ⟨h1, h2, rfl⟩
    obtain ⟨a, x, rfl⟩ := dropLast_concat h1
    simp only [blockFrameLengths, List.cons_append, readByte, ok_bind, if_neg (show Lace.xiph ≠ .none by decide),
      ofNat_pred h1 h2]
    have := laceLoop_xiph (count := (a ++ [x]).length)
      (D := (((UInt8.ofNat ((a ++ [x]).length - 1) :: a.flatMap xiphSize).length + (a ++ [x]).sum : Nat) : Int)) a data [] 1 (by simp)
    simp only [List.dropLast_concat]
    rw [List.length_append, List.length_singleton] at this ⊢
    rw [this]
    simp only [List.nil_append, List.map_append, List.map_cons, List.map_nil, sumInt_cast, List.sum_append,
      List.length_cons, List.sum_cons, List.sum_nil]
    congr 2
    · congr 2; simp only [Int.ofNat_eq_natCast]; omega
    · rw [Nat.add_comm]

/-- C31: with fixed and EBML lacing, for two frames or more. -/
theorem lacing_fixed_ebml_partial (t : Lace) (ht : t = .fixed ∨ t = .ebml)
    (sizes : List Nat) (hdr data : Bytes) (h : Laced t sizes hdr) (h2 : 2 ≤ sizes.length) :
    blockFrameLengths t ((hdr.length + sizes.sum : Nat) : Int) (hdr ++ data) =
      .ok (sizes.map Int.ofNat, hdr.length, data) := by
  rcases ht with rfl | rfl
  · obtain ⟨h1, h3, ⟨s, hs⟩, rfl⟩ := h
    simp only [blockFrameLengths, List.cons_append, readByte, ok_bind, if_neg (show Lace.fixed ≠ .none by decide),
      ofNat_pred h1 h3, laceLoop_fixed, List.nil_append, List.length_singleton]
    have hrep : sizes = List.replicate sizes.length s := List.eq_replicate_iff.mpr ⟨rfl, hs⟩
    have hsum : sizes.sum = sizes.length * s := by
      conv => lhs; rw [hrep]
      exact List.sum_replicate_nat
    have : Int.fdiv ((1 + sizes.sum : Nat) : Int) (sizes.length : Nat) = (s : Int) := by
      rw [Int.fdiv_eq_ediv_of_nonneg _ (by omega), hsum, ← Int.natCast_ediv, Nat.add_comm,
        Nat.mul_add_div (by omega), Nat.div_eq_of_lt (by omega)]
      simp
    rw [this]
    congr 2
    conv => rhs; rw [hrep]
    rw [List.map_replicate]
    rfl
  · obtain ⟨h1, h3, h⟩ := h
    obtain ⟨a, x, rfl⟩ := dropLast_concat h1
    rw [List.dropLast_concat] at h
    cases a with
    | nil => simp at h2
    | cons s l =>
      obtain ⟨n, b1, b2, hv, hd, rfl⟩ := h
      have hn := vint_length hv
      simp only [blockFrameLengths, List.cons_append, readByte, ok_bind, if_neg (show Lace.ebml ≠ .none by decide)]
      rw [← List.cons_append, ofNat_pred h1 h3]
      simp only [List.length_append, List.length_cons, List.length_nil, Nat.zero_add]
      rw [laceLoop]
      simp only [List.getLast?_nil, List.append_assoc]
      rw [getEbmlUIntStream_vint hv, ok_bind]
      have := laceLoop_ebml (count := l.length + 1 + 1)
        (D := ((b1.length + b2.length + 1 + ((s :: l) ++ [x]).sum : Nat) : Int)) l data [] s (1 + n) b2 hd (by simp; omega)
      simp only
      rw [this]
      simp only [List.nil_append, List.map_append, List.map_cons, List.map_nil, sumInt_cast, List.sum_append,
        List.sum_cons, List.sum_nil, List.cons_append, sumInt_cons]
      congr 2
      · congr 3
        rw [← hn]
        simp
        omega
      · congr 1; omega

/-- C31 is false for a block of one frame of 5 bytes: with fixed lacing the reader
reports 6 bytes, with EBML lacing it takes the first byte of the frame as its size. -/
theorem lacing_one_frame : ¬ lacing_decodes .fixed ∧ ¬ lacing_decodes .ebml := by
  refine ⟨fun h => ?_, fun h => ?_⟩
  · exact absurd (h [5] [0] [1, 2, 3, 4, 5] (by simp [Laced])) (by decide)
  · exact absurd (h [5] [0] [0x81, 2, 3, 4, 5] (by simp [Laced])) (by decide)

/-- C31: on arbitrary input, the sizes reported for an unlaced, Xiph laced or EBML laced
block with more than one frame, together with the lacing header, add up to the block. -/
theorem lacing_covers_block {t : Lace} {D : Int} {s s' : Bytes} {sizes : List Int} {c : Nat}
    (h : blockFrameLengths t D s = .ok (sizes, c, s')) (ht : t ≠ .fixed)
    (hl : t = .none ∨ 2 ≤ sizes.length) : sumInt sizes + c = D := by
  cases t with
  | fixed => exact absurd rfl ht
  | none =>
    simp [blockFrameLengths, laceLoop] at h
    obtain ⟨rfl, rfl, rfl⟩ := h
    simp
  | xiph | ebml =>
    simp only [blockFrameLengths, reduceCtorEq, if_false, bind_eq_ok] at h
    obtain ⟨⟨n, s1⟩, _, h⟩ := h
    simp only at h
    have h2 : 2 ≤ sizes.length := hl.resolve_left (by simp)
    cases n with
    | zero =>
      exfalso
      have : sizes.length = 1 := by
        rw [laceLoop] at h
        first
          | simp only [List.getLast?_nil, bind_eq_ok, laceLoop] at h
            obtain ⟨⟨a, b, d⟩, _, h⟩ := h
            simp only [Except.ok.injEq, Prod.mk.injEq] at h
            obtain ⟨rfl, _, _⟩ := h
            rfl
          | rw [if_neg (by simp)] at h
            simp only [laceLoop, Except.ok.injEq, Prod.mk.injEq] at h
            obtain ⟨rfl, _, _⟩ := h
            rfl
      omega
    | succ n => exact (laceLoop_sum (by simp) (n + 1) [] 1 s1 sizes c s' (by simp) (by omega) h).1

example : Laced .xiph [300, 0, 7] [2, 255, 45, 0] := ⟨by decide, by decide, by decide⟩
set_option maxRecDepth 4000 in
example : blockFrameLengths .xiph (4 + 307) ([2, 255, 45, 0] ++ [9]) = .ok ([300, 0, 7], 4, [9]) := by decide
/-- The example of the Matroska specification. -/
example : Laced .ebml [800, 500, 1000] [2, 0x43, 0x20, 0x5E, 0xD3] :=
  ⟨by decide, by decide, 2, [0x43, 0x20], [0x5E, 0xD3], by unfold IsVint; decide,
    ⟨2, [0x5E, 0xD3], [], ⟨0x1ED3, by unfold IsVint; decide, by decide⟩, rfl, rfl⟩, rfl⟩
set_option maxRecDepth 4000 in
example : blockFrameLengths .ebml (5 + 2300) ([2, 0x43, 0x20, 0x5E, 0xD3] ++ [9]) =
    .ok ([800, 500, 1000], 5, [9]) := by decide

/-! ### C32 -/

/-- C32: the four bytes have their top bit clear, hold the size, and are decoded to it,
whatever follows. -/
theorem id3_round_trip {n : Nat} (h : n < 2 ^ 28) (post : Bytes) :
    (encodeId3Size n).length = 4 ∧ (∀ b ∈ encodeId3Size n, b.toNat < 128) ∧
    decodeId3Size (encodeId3Size n ++ post) = .ok n := by
  have hm : ∀ m : Nat, (UInt8.ofNat (m &&& 0x7F)).toNat = m % 128 := by
    intro m
    rw [UInt8.toNat_ofNat', show (0x7F:Nat) = 2 ^ 7 - 1 from rfl, Nat.and_two_pow_sub_one_eq_mod]
    omega
  refine ⟨by simp [encodeId3Size], ?_, ?_⟩
  · intro b hb
    simp only [encodeId3Size, List.mem_reverse, List.mem_map] at hb
    obtain ⟨i, _, rfl⟩ := hb
    rw [hm]; omega
  · simp only [encodeId3Size, show List.range 4 = [0, 1, 2, 3] from rfl, List.map_cons, List.map_nil,
      List.reverse_cons, List.reverse_nil, List.nil_append, List.cons_append, decodeId3Size, hm,
      Nat.shiftRight_eq_div_pow, Except.ok.injEq]
    omega

/-- C32: sizes of 2^28 and more do not survive: 2^28 is written as 0. -/
theorem id3_limit : decodeId3Size (encodeId3Size (2 ^ 28)) = .ok 0 := by decide

/-- C32: the other direction, for tag sizes as they occur in a file. -/
theorem id3_reencode {b0 b1 b2 b3 : UInt8} (h : ∀ b ∈ [b0, b1, b2, b3], b.toNat < 128) :
    ∃ n, decodeId3Size [b0, b1, b2, b3] = .ok n ∧ n < 2 ^ 28 ∧ encodeId3Size n = [b0, b1, b2, b3] := by
  simp only [List.mem_cons, List.not_mem_nil, or_false, forall_eq_or_imp, forall_eq] at h
  obtain ⟨h0, h1, h2, h3⟩ := h
  have hm : ∀ (m : Nat) (b : UInt8), m % 128 = b.toNat → UInt8.ofNat (m &&& 0x7F) = b := by
    intro m b h
    apply UInt8.toNat_inj.mp
    rw [UInt8.toNat_ofNat', show (0x7F:Nat) = 2 ^ 7 - 1 from rfl, Nat.and_two_pow_sub_one_eq_mod]
    omega
  refine ⟨_, rfl, by omega, ?_⟩
  simp only [encodeId3Size, show List.range 4 = [0, 1, 2, 3] from rfl, List.map_cons, List.map_nil,
    List.reverse_cons, List.reverse_nil, List.nil_append, List.cons_append, Nat.shiftRight_eq_div_pow]
  congr 1
  · apply hm; omega
  congr 1
  · apply hm; omega
  congr 1
  · apply hm; omega
  congr 1
  · apply hm; omega

example : encodeId3Size 300 = [0, 0, 2, 44] ∧ decodeId3Size ([0, 0, 2, 44] ++ [1]) = .ok 300 := by decide

end Rescene.Props
