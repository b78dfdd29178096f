import Verif.Spec.Bitflip
import Verif.Lemmas.Bitflip
import Verif.Lemmas.CrcTables
import Verif.Props.Damage
/-
C84: bitflip.py finds the first change of one byte that gives a file its checksum; when that is the original file.
-/
namespace Rescene.Props
open Rescene Spec

/-! ### What is tried -/

theorem values_allows (m : FlipMode) (old new : UInt8) : new ∈ m.values old ↔ FlipMode.Allows m old new := by
  cases m with
  | bit =>
    unfold FlipMode.values FlipMode.Allows
    have e : ∀ i : Fin 8, (0x80 >>> UInt8.ofNat i.1 : UInt8) = 1 <<< UInt8.ofNat (7 - i.1) := by decide
    constructor
    · intro h
      obtain ⟨i, hi, rfl⟩ := List.mem_map.1 h
      have hi := List.mem_range.1 hi
      exact ⟨7 - i, by omega, by rw [e ⟨i, hi⟩]⟩
    · rintro ⟨i, hi, rfl⟩
      have h := e ⟨7 - i, by omega⟩
      simp only [show 7 - (7 - i) = i by omega] at h
      exact List.mem_map.2 ⟨7 - i, List.mem_range.2 (by omega), by rw [h]⟩
  | byte =>
    unfold FlipMode.values FlipMode.Allows
    simp only [iff_true]
    exact List.mem_map.2 ⟨new.toNat, List.mem_range.2 new.toNat_lt, by simp⟩
  | switch =>
    unfold FlipMode.values FlipMode.Allows
    constructor
    · intro h
      obtain ⟨i, hi, rfl⟩ := List.mem_map.1 h
      exact ⟨i, List.mem_range.1 hi, rfl⟩
    · rintro ⟨i, hi, rfl⟩
      exact List.mem_map.2 ⟨i, List.mem_range.2 hi, rfl⟩

theorem firstFix_none {d : Bytes} {expected : BitVec 32} {m : FlipMode} : ∀ {l : List Nat}, firstFix d expected m l = none →
    ∀ cur ∈ l, ∀ out, ¬ Repairs d expected m cur out := by
  intro l
  induction l with
  | nil => intro _ cur h; simp at h
  | cons c l ih =>
    intro h cur hc out hr
    unfold firstFix at h
    split at h
    · cases h
    · next hv =>
      rcases List.mem_cons.1 hc with rfl | hc
      · obtain ⟨old, new, h1, h2, rfl, h4⟩ := hr
        rw [h1, Option.getD_some] at hv
        exact absurd (decide_eq_true h4) (List.find?_eq_none.1 hv new ((values_allows ..).2 h2))
      · exact ih h cur hc out hr

theorem firstFix_some {d : Bytes} {expected : BitVec 32} {m : FlipMode} : ∀ {l : List Nat} {cur : Nat} {out : Bytes},
    (∀ c ∈ l, c < d.length) → firstFix d expected m l = some (cur, out) →
    ∃ l1 l2, l = l1 ++ cur :: l2 ∧ Repairs d expected m cur out ∧ ∀ c ∈ l1, ∀ out', ¬ Repairs d expected m c out' := by
  intro l
  induction l with
  | nil => intro cur out _ h; cases h
  | cons c l ih =>
    intro cur out hl h
    unfold firstFix at h
    split at h
    · next v hv =>
      cases h
      have hlt := hl c (by simp)
      refine ⟨[], l, rfl, ⟨_, v, List.getElem?_eq_getElem hlt, ?_, rfl, by simpa using List.find?_some hv⟩, by simp⟩
      rw [List.getElem?_eq_getElem hlt, Option.getD_some] at hv
      exact (values_allows ..).1 (List.mem_of_find?_eq_some hv)
    · next hv =>
      obtain ⟨l1, l2, h1, h2, h3⟩ := ih (fun c hc => hl c (List.mem_cons_of_mem _ hc)) h
      refine ⟨c :: l1, l2, by rw [h1]; rfl, h2, ?_⟩
      intro c' hc' out' hr
      rcases List.mem_cons.1 hc' with rfl | hc'
      · obtain ⟨old, new, g1, g2, rfl, g4⟩ := hr
        rw [g1, Option.getD_some] at hv
        exact absurd (decide_eq_true g4) (List.find?_eq_none.1 hv new ((values_allows ..).2 g2))
      · exact h3 c' hc' out' hr

/-! ### The search -/

/-- C84: the search never fails (none of the checks in it does, nothing is missing in its table), and finds the first byte of the
range that can be changed so that the file has the checksum, if there is one. -/
theorem bitflip_search (data : Bytes) (expected : BitVec 32) (mode : FlipMode) (rs re : Nat) {skip : Nat} (hskip : 0 < skip) (hr : rs ≤ re) (hl : rs ≤ data.length) :
    ∃ r, bitflip data expected mode (some (rs, re)) skip = .ok r ∧
      match r with
      | none => ∀ cur out, rs ≤ cur → cur < re → ¬ Repairs data expected mode cur out
      | some (cur, out) => rs ≤ cur ∧ cur < re ∧ Repairs data expected mode cur out ∧
          ∀ cur' out', rs ≤ cur' → cur' < cur → ¬ Repairs data expected mode cur' out' := by
  have hout : ∀ cur out, Repairs data expected mode cur out → cur < data.length := by
    rintro cur out ⟨old, _, h, _⟩
    exact (List.getElem?_eq_some_iff.1 h).1
  unfold bitflip
  rw [Option.getD_some]
  dsimp only
  generalize hre : (if re > data.length then data.length else re) = re'
  have hre1 : re' ≤ data.length ∧ rs ≤ re' ∧ re' ≤ re ∧ (re' < re → re' = data.length) := by rw [← hre]; split <;> omega
  obtain ⟨b1, b2, b3, b4⟩ := hre1
  rw [if_neg (by omega)]
  rw [validate_ok hskip b2 b1 _ (fun _ h => h), ok_bind]
  rw [flipLoop_ok hskip b1 (re' - rs) rs _ (by omega) ⟨by simp, fun h => absurd (Nat.zero_mod skip) h⟩]
  refine ⟨_, rfl, ?_⟩
  have hmem : ∀ c, c ∈ (List.range (re' - rs)).map (rs + ·) ↔ rs ≤ c ∧ c < re' := by
    intro c
    rw [List.mem_map]
    constructor
    · rintro ⟨i, hi, rfl⟩
      have := List.mem_range.1 hi
      omega
    · rintro ⟨h1, h2⟩
      exact ⟨c - rs, List.mem_range.2 (by omega), by omega⟩
  split
  · next h =>
    intro cur out h1 h2 hrep
    have := hout _ _ hrep
    exact firstFix_none h cur ((hmem cur).2 ⟨h1, by omega⟩) out hrep
  · next cur out h =>
    obtain ⟨l1, l2, g1, g2, g3⟩ := firstFix_some (fun c hc => by have := (hmem c).1 hc; omega) h
    have hc := (hmem cur).1 (by rw [g1]; simp)
    refine ⟨hc.1, by omega, g2, ?_⟩
    intro cur' out' h1 h2
    apply g3 cur'
    have hm : cur' ∈ l1 ++ cur :: l2 := by rw [← g1]; exact (hmem cur').2 ⟨h1, by omega⟩
    rcases List.mem_append.1 hm with h | h
    · exact h
    · exfalso
      have hpw : ((List.range (re' - rs)).map (rs + ·)).Pairwise (· < ·) := by
        rw [List.pairwise_map]
        exact List.pairwise_lt_range.imp fun h => by omega
      rw [g1, List.pairwise_append] at hpw
      rcases List.mem_cons.1 h with h | h
      · omega
      · have := (List.pairwise_cons.1 hpw.2.1).1 cur' h
        omega

/-- C84: without a range the whole file is searched. -/
theorem bitflip_whole (data : Bytes) (expected : BitVec 32) (mode : FlipMode) (skip : Nat) :
    bitflip data expected mode none skip = bitflip data expected mode (some (0, data.length)) skip := rfl

/-! ### What a changed byte does to the checksum -/

theorem ofNat_xor8 (a b : UInt8) : BitVec.ofNat 32 (a ^^^ b).toNat = BitVec.ofNat 32 a.toNat ^^^ BitVec.ofNat 32 b.toNat := by
  rw [UInt8.toNat_xor, BitVec.ofNat_xor]

theorem crc_set (d : Bytes) {cur : Nat} {old : UInt8} (h : d[cur]? = some old) (new : UInt8) :
    crc32 (d.set cur new) 0 = crc32 d 0 ^^^ zeros (8 * (d.length - cur)) (BitVec.ofNat 32 (old ^^^ new).toNat) := by
  obtain ⟨hlt, hget⟩ := List.getElem?_eq_some_iff.1 h
  have h1 : ∀ v, d.set cur v = (d.take cur ++ [v]) ++ d.drop (cur + 1) := by
    intro v
    rw [List.set_eq_take_append_cons_drop, if_pos hlt]; simp
  have h2 : d = d.set cur old := by rw [← hget]; exact (List.set_getElem_self hlt).symm
  have hb : ∀ v, crc32 (d.take cur ++ [v]) 0 = crc32 (d.take cur) 0 ^^^ crc32 (d.take cur) 0 ^^^ crc32 (d.take cur ++ [v]) 0 := by
    intro v; rw [BitVec.xor_self]; exact BitVec.zero_xor.symm
  have key : crc32 (d.take cur ++ [new]) 0 = crc32 (d.take cur ++ [old]) 0 ^^^ zeros 8 (BitVec.ofNat 32 (old ^^^ new).toNat) := by
    unfold crc32
    rw [List.foldl_append, List.foldl_append]
    simp only [List.foldl_cons, List.foldl_nil]
    generalize List.foldl crcByte _ _ = s
    rw [← not_xor_eq]
    unfold crcByte
    rw [crcStep8_zeros, crcStep8_zeros, ← zeros_lin, ofNat_xor8, BitVec.xor_assoc, ← BitVec.xor_assoc (BitVec.ofNat 32 old.toNat),
      BitVec.xor_self, show (0#32 ^^^ BitVec.ofNat 32 new.toNat) = BitVec.ofNat 32 new.toNat from BitVec.zero_xor]
  rw [h1 new, crc32_concat, key, zeros_lin, ← zeros_add, List.length_drop, show 8 + 8 * (d.length - (cur + 1)) = 8 * (d.length - cur) by omega]
  have h3 : crc32 d 0 = zeros (8 * (d.length - (cur + 1))) (crc32 (d.take cur ++ [old]) 0) ^^^ crc32 (d.drop (cur + 1)) 0 := by
    conv => lhs; rw [h2, h1 old, crc32_concat, List.length_drop]
  rw [h3, BitVec.xor_assoc, BitVec.xor_assoc, BitVec.xor_comm (crc32 (List.drop _ _) 0)]

theorem xor_cancel {a b c : BitVec 32} (h : a ^^^ b = a ^^^ c) : b = c := by
  have := congrArg (fun v => a ^^^ v) h
  simp only [← BitVec.xor_assoc, BitVec.xor_self] at this
  rw [show (0#32 ^^^ b : BitVec 32) = b from BitVec.zero_xor, show (0#32 ^^^ c : BitVec 32) = c from BitVec.zero_xor] at this
  exact this

theorem ofNat_inj8 {a b : UInt8} (h : BitVec.ofNat 32 a.toNat = BitVec.ofNat 32 b.toNat) : a = b := by
  have h4 := congrArg BitVec.toNat h
  simp only [BitVec.toNat_ofNat] at h4
  rw [Nat.mod_eq_of_lt (by have := a.toNat_lt; omega), Nat.mod_eq_of_lt (by have := b.toNat_lt; omega)] at h4
  exact UInt8.toNat_inj.1 h4

theorem byte_power {e : UInt8} (h : e ≠ 0) (n : Nat) : zeros n (BitVec.ofNat 32 e.toNat) = zeros (byteLog e.toNat + n) crcOne := by
  rw [zeros_add, byteLog_ok (by
    intro h0
    apply h
    exact UInt8.toNat_inj.1 h0) e.toNat_lt]

theorem xor_self8 (a : UInt8) : a ^^^ a = 0 := UInt8.xor_self

theorem xor_ne8 {a b : UInt8} (h : a ≠ b) : a ^^^ b ≠ 0 := by
  intro h0
  apply h
  have := congrArg (· ^^^ b) h0
  simp only [UInt8.xor_assoc, UInt8.xor_self, UInt8.xor_zero, UInt8.zero_xor] at this
  exact this

/-- When no other change gives the checksum, the search ends with the original. -/
theorem repairs_exact {orig : Bytes} {m : FlipMode} {p : Nat} {o x : UInt8} (ho : orig[p]? = some o) (hx : x ≠ o) (hallow : FlipMode.Allows m x o)
    {rs re skip : Nat} (hskip : 0 < skip) (h1 : rs ≤ p) (h2 : p < re)
    (huniq : ∀ cur y z, (orig.set p x)[cur]? = some y → FlipMode.Allows m y z → y ≠ z →
      zeros (8 * (orig.length - cur)) (BitVec.ofNat 32 (y ^^^ z).toNat) = zeros (8 * (orig.length - p)) (BitVec.ofNat 32 (o ^^^ x).toNat) →
      cur = p ∧ y ^^^ z = o ^^^ x) :
    bitflip (orig.set p x) (crc32 orig 0) m (some (rs, re)) skip = .ok (some (p, orig)) := by
  obtain ⟨hlt, hget⟩ := List.getElem?_eq_some_iff.1 ho
  obtain ⟨r, hr, hm⟩ := bitflip_search (orig.set p x) (crc32 orig 0) m rs re hskip (by omega) (by rw [List.length_set]; omega)
  rw [hr]
  have hp : (orig.set p x)[p]? = some x := by rw [List.getElem?_set_self hlt]
  have hback : (orig.set p x).set p o = orig := by rw [List.set_set, ← hget, List.set_getElem_self]
  cases r with
  | none => exact absurd ⟨x, o, hp, hallow, hback.symm, rfl⟩ (hm p orig h1 h2)
  | some q =>
    obtain ⟨cur, out⟩ := q
    obtain ⟨c1, c2, ⟨y, z, g1, g2, g3, g4⟩, c4⟩ := hm
    have hne : crc32 (orig.set p x) 0 ≠ crc32 orig 0 := by
      rw [crc_set _ ho]
      apply xor_ne
      intro h0
      rw [byte_power (xor_ne8 (Ne.symm hx))] at h0
      exact power_ne_zero _ h0
    have hyz : y ≠ z := by
      rintro rfl
      apply hne
      rw [← g4, g3]
      obtain ⟨hc, hg⟩ := List.getElem?_eq_some_iff.1 g1
      conv => rhs; rw [← hg, List.set_getElem_self]
    rw [g3, crc_set _ g1, crc_set _ ho, List.length_set, BitVec.xor_assoc] at g4
    have h5 : zeros (8 * (orig.length - p)) (BitVec.ofNat 32 (o ^^^ x).toNat) ^^^ zeros (8 * (orig.length - cur)) (BitVec.ofNat 32 (y ^^^ z).toNat) = 0 := by
      have : crc32 orig 0 ^^^ (zeros (8 * (orig.length - p)) (BitVec.ofNat 32 (o ^^^ x).toNat) ^^^ zeros (8 * (orig.length - cur)) (BitVec.ofNat 32 (y ^^^ z).toNat)) = crc32 orig 0 ^^^ 0 := by
        rw [g4]; exact BitVec.xor_zero.symm
      exact xor_cancel this
    obtain ⟨rfl, hz⟩ := huniq cur y z g1 g2 hyz (xor_eq_zero32 h5).symm
    rw [hp] at g1
    cases g1
    have : z = o := by
      have := congrArg (x ^^^ ·) hz
      simp only [← UInt8.xor_assoc, UInt8.xor_self, UInt8.zero_xor] at this
      rw [UInt8.xor_comm x o, UInt8.xor_assoc, UInt8.xor_self, UInt8.xor_zero] at this
      exact this
    rw [g3, this, hback]

/-! ### Bits -/

/-- Changes that are close to each other as powers of `x` are told apart in files below 512 MiB. -/
theorem window_unique {len cur p : Nat} {a b : UInt8} {w : Nat} (hlen : len < 2 ^ 29) (hcur : cur < len) (hp : p < len) (ha0 : a ≠ 0) (hb0 : b ≠ 0)
    (ha : w ≤ byteLog a.toNat ∧ byteLog a.toNat < w + 8) (hb : w ≤ byteLog b.toNat ∧ byteLog b.toNat < w + 8)
    (h : zeros (8 * (len - cur)) (BitVec.ofNat 32 a.toNat) = zeros (8 * (len - p)) (BitVec.ofNat 32 b.toNat)) : cur = p ∧ a = b := by
  have hcp : cur = p := by
    apply Classical.byContradiction
    intro hne
    rw [byte_power ha0, byte_power hb0] at h
    have e : crcPeriod = 2 ^ 32 - 1 := by decide
    exact powers_differ (by omega) (by omega) (by omega) h
  subst hcp
  exact ⟨rfl, ofNat_inj8 (zeros_inj h)⟩

theorem bit_logs : ∀ i : Fin 8, (1 <<< UInt8.ofNat i.1 : UInt8) ≠ 0 ∧ 24 ≤ byteLog (1 <<< UInt8.ofNat i.1 : UInt8).toNat ∧
    byteLog (1 <<< UInt8.ofNat i.1 : UInt8).toNat < 24 + 8 := by decide +kernel

theorem switch_logs : ∀ i : Fin 7, (3 <<< UInt8.ofNat i.1 : UInt8) ≠ 0 ∧ 376820532 ≤ byteLog (3 <<< UInt8.ofNat i.1 : UInt8).toNat ∧
    byteLog (3 <<< UInt8.ofNat i.1 : UInt8).toNat < 376820532 + 8 := by decide +kernel

theorem xor_xor_self8 (a b : UInt8) : a ^^^ (a ^^^ b) = b := by rw [← UInt8.xor_assoc, UInt8.xor_self, UInt8.zero_xor]

theorem xor_right8 (a b : UInt8) : a ^^^ b ^^^ b = a := by rw [UInt8.xor_assoc, UInt8.xor_self, UInt8.xor_zero]

theorem xor_ne_self8 {a e : UInt8} (h : e ≠ 0) : a ^^^ e ≠ a := by
  intro h0
  apply h
  have := congrArg (a ^^^ ·) h0
  simp only [xor_xor_self8, UInt8.xor_self] at this
  exact this

/-- C84: a file of less than 512 MiB in which one bit has changed is repaired: the result is the original. -/
theorem bit_repaired {orig : Bytes} (hlen : orig.length < 2 ^ 29) {p : Nat} (hp : p < 8 * orig.length) {rs re skip : Nat} (hskip : 0 < skip)
    (h1 : rs ≤ p / 8) (h2 : p / 8 < re) :
    bitflip (flipBit orig p) (crc32 orig 0) .bit (some (rs, re)) skip = .ok (some (p / 8, orig)) := by
  have hlt : p / 8 < orig.length := by omega
  have ho := List.getElem?_eq_getElem hlt
  generalize orig[p / 8] = o at ho
  have hf : flipBit orig p = orig.set (p / 8) (o ^^^ (1 <<< UInt8.ofNat (p % 8))) := by
    unfold flipBit
    rw [List.modify_eq_set, ho]
    rfl
  obtain ⟨e0, e1, e2⟩ := bit_logs ⟨p % 8, by omega⟩
  simp only at e0 e1 e2
  rw [hf]
  refine repairs_exact (m := .bit) ho (xor_ne_self8 e0) ⟨p % 8, by omega, (xor_right8 _ _).symm⟩ hskip h1 h2 ?_
  rintro cur y z hy ⟨i, hi, rfl⟩ hne h
  rw [xor_xor_self8] at h ⊢
  rw [xor_xor_self8] at h ⊢
  obtain ⟨f0, f1, f2⟩ := bit_logs ⟨i, hi⟩
  have hc := (List.getElem?_eq_some_iff.1 hy).1
  rw [List.length_set] at hc
  exact window_unique (w := 24) hlen hc hlt f0 e0 ⟨f1, f2⟩ ⟨e1, e2⟩ h

/-- C84, `--bitswitch`: the same for two adjacent bits of a byte. -/
theorem switch_repaired {orig : Bytes} (hlen : orig.length < 2 ^ 29) {p i : Nat} {o : UInt8} (ho : orig[p]? = some o) (hi : i < 7) {rs re skip : Nat}
    (hskip : 0 < skip) (h1 : rs ≤ p) (h2 : p < re) :
    bitflip (orig.set p (o ^^^ (3 <<< UInt8.ofNat i))) (crc32 orig 0) .switch (some (rs, re)) skip = .ok (some (p, orig)) := by
  have hlt := (List.getElem?_eq_some_iff.1 ho).1
  obtain ⟨e0, e1, e2⟩ := switch_logs ⟨i, hi⟩
  refine repairs_exact (m := .switch) ho (xor_ne_self8 e0) ⟨i, hi, (xor_right8 _ _).symm⟩ hskip h1 h2 ?_
  rintro cur y z hy ⟨j, hj, rfl⟩ hne h
  rw [xor_xor_self8] at h ⊢
  rw [xor_xor_self8] at h ⊢
  obtain ⟨f0, f1, f2⟩ := switch_logs ⟨j, hj⟩
  have hc := (List.getElem?_eq_some_iff.1 hy).1
  rw [List.length_set] at hc
  exact window_unique (w := 376820532) hlen hc hlt f0 e0 ⟨f1, f2⟩ ⟨e1, e2⟩ h

/-! ### Bytes -/

set_option maxRecDepth 100000 in
theorem byteLogs_apart : (byteLogs.tail.all fun a => decide (a < crcPeriod) && byteLogs.tail.all fun b =>
    let n := (b + crcPeriod - a) % crcPeriod
    n % 8 != 0 || n == 0 || decide (8 * 145212 ≤ n)) = true := by decide +kernel

theorem byteLog_mem {e : UInt8} (h : e ≠ 0) : byteLog e.toNat ∈ byteLogs.tail := by
  have hl : byteLogs.length = 256 := by decide +kernel
  have he : e.toNat ≠ 0 := fun h0 => h (UInt8.toNat_inj.1 h0)
  obtain ⟨k, hk⟩ : ∃ k, e.toNat = k + 1 := ⟨e.toNat - 1, by omega⟩
  have hlt : e.toNat < 256 := e.toNat_lt
  unfold byteLog
  rw [hk, ← List.getElem?_tail, List.getElem?_eq_getElem (by rw [List.length_tail, hl]; omega), Option.getD_some]
  exact List.getElem_mem _

theorem powers_mod (a : Nat) : zeros (a % crcPeriod) crcOne = zeros a crcOne := by
  conv => rhs; rw [← Nat.div_add_mod a crcPeriod, zeros_add, one_mul_period period_one]

theorem byte_unique_le {len cur p : Nat} {a b : UInt8} (hcur : cur < len) (hp : p < len) (hlen : p < cur + 145212) (hle : cur ≤ p) (ha0 : a ≠ 0) (hb0 : b ≠ 0)
    (h : zeros (8 * (len - cur)) (BitVec.ofNat 32 a.toNat) = zeros (8 * (len - p)) (BitVec.ofNat 32 b.toNat)) : cur = p := by
  have hmem := List.all_eq_true.1 byteLogs_apart _ (byteLog_mem ha0)
  rw [Bool.and_eq_true] at hmem
  have hmb := List.all_eq_true.1 hmem.2 _ (byteLog_mem hb0)
  have hla := of_decide_eq_true hmem.1
  have hlb := of_decide_eq_true (Bool.and_eq_true .. ▸ List.all_eq_true.1 byteLogs_apart _ (byteLog_mem hb0) : _ ∧ _).1
  rw [show 8 * (len - cur) = 8 * (p - cur) + 8 * (len - p) by omega, zeros_add] at h
  have h := zeros_inj h
  have hb := byte_power hb0 0
  rw [show zeros 0 (BitVec.ofNat 32 b.toNat) = BitVec.ofNat 32 b.toNat from rfl, Nat.add_zero] at hb
  rw [byte_power ha0, hb, ← powers_mod] at h
  have e : crcPeriod = 4294967295 := rfl
  have heq : (byteLog a.toNat + 8 * (p - cur)) % crcPeriod = byteLog b.toNat := by
    apply Classical.byContradiction
    intro hne
    have := Nat.mod_lt (byteLog a.toNat + 8 * (p - cur)) (show 0 < crcPeriod by decide)
    exact powers_differ hne (by omega) (by omega) h
  have hn : (byteLog b.toNat + crcPeriod - byteLog a.toNat) % crcPeriod = 8 * (p - cur) := by
    rw [e] at hla hlb heq ⊢
    omega
  simp only [hn, Bool.or_eq_true, bne_iff_ne, beq_iff_eq, decide_eq_true_eq] at hmb
  omega

/-- C84, `--byte`: a file of at most 145212 bytes of which one has changed is repaired: the result is the original. -/
theorem byte_repaired {orig : Bytes} (hlen : orig.length ≤ 145212) {p : Nat} {o x : UInt8} (ho : orig[p]? = some o) (hx : x ≠ o) {rs re skip : Nat}
    (hskip : 0 < skip) (h1 : rs ≤ p) (h2 : p < re) :
    bitflip (orig.set p x) (crc32 orig 0) .byte (some (rs, re)) skip = .ok (some (p, orig)) := by
  have hlt := (List.getElem?_eq_some_iff.1 ho).1
  refine repairs_exact (m := .byte) ho hx trivial hskip h1 h2 ?_
  intro cur y z hy _ hne h
  have hc := (List.getElem?_eq_some_iff.1 hy).1
  rw [List.length_set] at hc
  have hcp : cur = p := by
    rcases Nat.le_total cur p with hle | hle
    · exact byte_unique_le hc hlt (by omega) hle (xor_ne8 hne) (xor_ne8 (Ne.symm hx)) h
    · exact (byte_unique_le hlt hc (by omega) hle (xor_ne8 (Ne.symm hx)) (xor_ne8 hne) h.symm).symm
  subst hcp
  exact ⟨rfl, ofNat_inj8 (zeros_inj h)⟩

theorem far_bytes : zeros (8 * 145212) (BitVec.ofNat 32 (248 : UInt8).toNat) = BitVec.ofNat 32 (169 : UInt8).toNat := by
  rw [zeros_table _ (by decide)]
  decide +kernel

/-- C84, the limit is sharp: every larger file can be damaged in one byte so that `--byte` writes another file than the original, with
the same checksum. -/
theorem byte_wrong (orig : Bytes) (hlen : 145212 < orig.length) {skip : Nat} (hskip : 0 < skip) :
    ∃ x out, bitflip (orig.set 145212 x) (crc32 orig 0) .byte none skip = .ok (some (0, out)) ∧ crc32 out 0 = crc32 orig 0 ∧ out ≠ orig := by
  have ho := List.getElem?_eq_getElem hlen
  generalize orig[145212] = o at ho
  have hlt0 : 0 < orig.length := by omega
  obtain ⟨r, hr, hm⟩ := bitflip_search (orig.set 145212 (o ^^^ 169)) (crc32 orig 0) .byte 0 orig.length hskip (by omega) (by omega)
  have hd0 : (orig.set 145212 (o ^^^ 169))[0]? = some orig[0] := by
    rw [List.getElem?_set_ne (by decide), List.getElem?_eq_getElem hlt0]
  have hfix : Repairs (orig.set 145212 (o ^^^ 169)) (crc32 orig 0) .byte 0 ((orig.set 145212 (o ^^^ 169)).set 0 (orig[0] ^^^ 248)) := by
    refine ⟨_, _, hd0, trivial, rfl, ?_⟩
    rw [crc_set _ hd0, crc_set _ ho, xor_xor_self8, xor_xor_self8, List.length_set,
      show 8 * (orig.length - 0) = 8 * 145212 + 8 * (orig.length - 145212) by omega, zeros_add _ _ (BitVec.ofNat 32 (248 : UInt8).toNat), far_bytes, BitVec.xor_assoc, BitVec.xor_self]
    exact BitVec.xor_zero
  rw [show orig.length = (orig.set 145212 (o ^^^ 169)).length by rw [List.length_set], ← bitflip_whole] at hr
  cases r with
  | none => exact absurd hfix (hm 0 _ (by omega) (by omega))
  | some q =>
    obtain ⟨cur, out⟩ := q
    obtain ⟨c1, c2, c3, c4⟩ := hm
    have hc : cur = 0 := by
      cases cur with
      | zero => rfl
      | succ n => exact absurd hfix (c4 0 _ (by omega) (by omega))
    subst hc
    obtain ⟨y, z, g1, g2, g3, g4⟩ := c3
    refine ⟨_, out, hr, g4, ?_⟩
    intro he
    have h1 : out[145212]? = some (o ^^^ 169) := by
      rw [g3, List.getElem?_set_ne (by decide), List.getElem?_set_self hlen]
    rw [he, ho] at h1
    exact xor_ne_self8 (show (169 : UInt8) ≠ 0 by decide) (Option.some.inj h1).symm

/-- C84: a reported repair is in the range, has the checksum, and differs from the file in at most one byte. -/
theorem bitflip_sound {data out : Bytes} {expected : BitVec 32} {mode : FlipMode} {rs re skip cur : Nat} (hskip : 0 < skip) (hr : rs ≤ re) (hl : rs ≤ data.length)
    (h : bitflip data expected mode (some (rs, re)) skip = .ok (some (cur, out))) :
    rs ≤ cur ∧ cur < re ∧ crc32 out 0 = expected ∧ out.length = data.length ∧ ∀ i, i ≠ cur → out[i]? = data[i]? := by
  obtain ⟨r, h1, h2⟩ := bitflip_search data expected mode rs re hskip hr hl
  rw [h] at h1
  cases h1
  obtain ⟨c1, c2, ⟨y, z, g1, g2, g3, g4⟩, _⟩ := h2
  refine ⟨c1, c2, g4, by rw [g3, List.length_set], ?_⟩
  intro i hi
  rw [g3, List.getElem?_set_ne (Ne.symm hi)]

/-! ### Examples -/

/-- A file with one bit changed, searched in parts of two bytes: "abcde" became "abgde". -/
example : bitflip [97, 98, 103, 100, 101] (crc32 [97, 98, 99, 100, 101] 0) .bit (some (1, 5)) 2 = .ok (some (2, [97, 98, 99, 100, 101])) :=
  bit_repaired (orig := [97, 98, 99, 100, 101]) (p := 18) (by decide) (by decide) (by decide) (by decide) (by decide)

/-- There is nothing to find when two bytes differ. -/
example : bitflip [97, 98, 103, 100, 0] (crc32 [97, 98, 99, 100, 101] 0) .bit none 1000 = .ok none := by decide +kernel

example : bitflip [97, 98, 96, 100, 101] (crc32 [97, 98, 99, 100, 101] 0) .switch (some (0, 9)) 3 = .ok (some (2, [97, 98, 99, 100, 101])) :=
  switch_repaired (orig := [97, 98, 99, 100, 101]) (p := 2) (i := 0) (by decide) rfl (by decide) (by decide) (by decide) (by decide)

example : bitflip [97, 98, 0, 100, 101] (crc32 [97, 98, 99, 100, 101] 0) .byte (some (0, 5)) 1000 = .ok (some (2, [97, 98, 99, 100, 101])) :=
  byte_repaired (orig := [97, 98, 99, 100, 101]) (p := 2) (by decide) rfl (by decide) (by decide) (by decide) (by decide)

/-- The hypothesis of `byte_wrong` holds for a file of 145213 zero bytes. -/
example : 145212 < (List.replicate 145213 (0 : UInt8)).length := by rw [List.length_replicate]; decide

end Rescene.Props
