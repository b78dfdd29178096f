import Verif.Model.Bitflip
import Verif.Props.Crc
/-
The loops of bitflip.py: the table, the parts, the values that are tried.
-/
namespace Rescene
open Props

/-! ### Parts of a file -/

theorem part_append (d : Bytes) {a b c : Nat} (h1 : a ≤ b) (h2 : b ≤ c) : part d a b ++ part d b c = part d a c := by
  unfold part
  have e1 : (d.take b).drop a = ((d.take c).drop a).take (b - a) := by
    rw [List.drop_take, List.drop_take, List.take_take]
    congr 1; omega
  have e2 : (d.take c).drop b = ((d.take c).drop a).drop (b - a) := by
    rw [List.drop_drop]; congr 1; omega
  rw [e1, e2, List.take_append_drop]

theorem part_length (d : Bytes) {a b : Nat} (h : b ≤ d.length) : (part d a b).length = b - a := by
  unfold part; rw [List.length_drop, List.length_take]; omega

theorem drop_part (d : Bytes) (a : Nat) : d.drop a = part d a d.length := by
  unfold part; rw [List.take_length]

theorem combine_parts (d : Bytes) {a b c : Nat} (h1 : a ≤ b) (h2 : b ≤ c) (h3 : c ≤ d.length) :
    crc32Combine (crc32 (part d a b) 0) (crc32 (part d b c) 0) ((c - b : Nat) : Int) = .ok (crc32 (part d a c) 0) := by
  have := crc32_combine_correct (part d a b) (part d b c)
  rw [part_append d h1 h2, part_length d h3] at this
  exact this

/-! ### The table -/

/-- All records are right. -/
def TableOk (d : Bytes) (t : FlipTable) : Prop := ∀ e ∈ t, e.2 = (crc32 (part d e.1.1 e.1.2) 0, e.1.2 - e.1.1)

theorem get_ok {d : Bytes} {t : FlipTable} (h : TableOk d t) {a b : Nat} (hk : (a, b) ∈ t.map Prod.fst) :
    t.get (a, b) = .ok (crc32 (part d a b) 0, b - a) := by
  unfold FlipTable.get
  induction t with
  | nil => simp at hk
  | cons e t ih =>
    obtain ⟨k, v⟩ := e
    rw [List.lookup_cons]
    by_cases hkk : (a, b) = k
    · subst hkk
      have := h ((a, b), v) (by simp)
      simp only at this
      subst this
      simp
    · have hf : ((a, b) == k) = false := by simpa using hkk
      rw [hf]
      exact ih (fun e he => h e (List.mem_cons_of_mem _ he)) (by
        simp only [List.map_cons, List.mem_cons] at hk
        exact hk.resolve_left hkk)

theorem tableOk_fold (d : Bytes) (rs re skip : Nat) (l : List Nat) : ∀ t, TableOk d t → TableOk d (l.foldl (precalculateOne d rs re skip) t) := by
  induction l with
  | nil => intro t h; exact h
  | cons s l ih =>
    intro t h
    refine ih _ ?_
    intro e he
    simp only [precalculateOne, List.mem_cons] at he
    rcases he with rfl | rfl | he
    · rfl
    · rfl
    · exact h e he

theorem keys_fold (d : Bytes) (rs re skip : Nat) (l : List Nat) : ∀ t k,
    k ∈ (l.foldl (precalculateOne d rs re skip) t).map Prod.fst ↔
      k ∈ t.map Prod.fst ∨ ∃ s ∈ l, k = (rs, s) ∨ k = (if s + skip > re then re else s + skip, re) := by
  induction l with
  | nil => intro t k; simp
  | cons s l ih =>
    intro t k
    rw [List.foldl_cons, ih]
    simp only [precalculateOne, List.map_cons, List.mem_cons]
    constructor
    · rintro ((rfl | rfl | h) | ⟨s', hs, h⟩)
      · exact Or.inr ⟨s, Or.inl rfl, Or.inr rfl⟩
      · exact Or.inr ⟨s, Or.inl rfl, Or.inl rfl⟩
      · exact Or.inl h
      · exact Or.inr ⟨s', Or.inr hs, h⟩
    · rintro (h | ⟨s', rfl | hs, h⟩)
      · exact Or.inl (Or.inr (Or.inr h))
      · rcases h with h | h
        · exact Or.inl (Or.inr (Or.inl h))
        · exact Or.inl (Or.inl h)
      · exact Or.inr ⟨s', hs, h⟩

theorem precalculate_ok (d : Bytes) (rs re skip : Nat) : TableOk d (precalculate d rs re skip) := by
  intro e he
  unfold precalculate at he
  rw [List.mem_cons] at he
  rcases he with rfl | he
  · rfl
  · exact tableOk_fold d rs re skip _ [] (fun _ h => by simp at h) e he

theorem mem_stepRange {a b step : Nat} (hs : 0 < step) {i : Nat} (h : a + i * step < b) : a + i * step ∈ stepRange a b step := by
  unfold stepRange
  rw [List.mem_map]
  refine ⟨i, List.mem_range.2 ?_, rfl⟩
  rw [← Nat.add_one_le_iff, Nat.le_div_iff_mul_le hs, Nat.add_mul]
  omega

theorem keys_start {d : Bytes} {rs re skip : Nat} (hs : 0 < skip) {i : Nat} (h : rs + i * skip ≤ re) :
    (rs, rs + i * skip) ∈ (precalculate d rs re skip).map Prod.fst := by
  unfold precalculate
  rw [List.map_cons, List.mem_cons]
  exact Or.inr ((keys_fold ..).2 (Or.inr ⟨_, mem_stepRange hs (by omega), Or.inl rfl⟩))

theorem keys_stop {d : Bytes} {rs re skip : Nat} (hs : 0 < skip) {i : Nat} (h : rs + i * skip ≤ re) :
    (if rs + i * skip + skip > re then re else rs + i * skip + skip, re) ∈ (precalculate d rs re skip).map Prod.fst := by
  unfold precalculate
  rw [List.map_cons, List.mem_cons]
  exact Or.inr ((keys_fold ..).2 (Or.inr ⟨_, mem_stepRange hs (by omega), Or.inr rfl⟩))

theorem keys_whole {d : Bytes} {rs re skip : Nat} : (rs, re) ∈ (precalculate d rs re skip).map Prod.fst := by
  unfold precalculate
  simp

theorem keys_end {d : Bytes} {rs re skip : Nat} (hs : 0 < skip) (hr : rs ≤ re) : (re, re) ∈ (precalculate d rs re skip).map Prod.fst := by
  have h1 := Nat.div_mul_le_self (re - rs) skip
  have h2 := Nat.div_add_mod (re - rs) skip
  have h3 := Nat.mod_lt (re - rs) hs
  have := keys_stop (d := d) (rs := rs) (re := re) hs (i := (re - rs) / skip) (by omega)
  rw [Nat.mul_comm] at h2
  rw [if_pos (by omega)] at this
  exact this

/-- The records that `validate_table` and the loop look up. -/
theorem keys_validate {d : Bytes} {rs re skip : Nat} (hs : 0 < skip) (hr : rs ≤ re) {s : Nat} (h : s ∈ stepRange rs (re + skip) skip) :
    let s' := if s > re then re else s
    rs ≤ s' ∧ s' ≤ re ∧ (rs, s') ∈ (precalculate d rs re skip).map Prod.fst ∧ (s', re) ∈ (precalculate d rs re skip).map Prod.fst := by
  unfold stepRange at h
  obtain ⟨i, _, rfl⟩ := List.mem_map.1 h
  intro s'
  by_cases hgt : rs + i * skip > re
  · have : s' = re := if_pos hgt
    rw [this]
    exact ⟨hr, Nat.le_refl _, keys_whole, keys_end hs hr⟩
  · have : s' = rs + i * skip := if_neg hgt
    rw [this]
    refine ⟨by omega, by omega, keys_start hs (by omega), ?_⟩
    cases i with
    | zero => rw [Nat.zero_mul, Nat.add_zero]; exact keys_whole
    | succ i =>
      rw [Nat.add_mul, Nat.one_mul] at hgt ⊢
      have := keys_stop (d := d) (rs := rs) (re := re) hs (i := i) (by omega)
      rw [if_neg (by omega)] at this
      rw [← Nat.add_assoc]
      exact this

theorem check_true : check true = .ok () := rfl

theorem validate_ok {d : Bytes} {rs re skip : Nat} (hs : 0 < skip) (hr : rs ≤ re) (hre : re ≤ d.length) : ∀ l : List Nat,
    (∀ s ∈ l, s ∈ stepRange rs (re + skip) skip) → validateTable (crc32 (part d rs re) 0) rs re (precalculate d rs re skip) l = .ok () := by
  intro l
  induction l with
  | nil => intro _; rfl
  | cons s l ih =>
    intro h
    obtain ⟨h1, h2, h3, h4⟩ := keys_validate (d := d) hs hr (h s (by simp))
    unfold validateTable
    dsimp only
    rw [get_ok (precalculate_ok _ _ _ _) h3, ok_bind]
    dsimp only
    rw [get_ok (precalculate_ok _ _ _ _) h4, ok_bind]
    dsimp only
    rw [combine_parts d h1 h2 hre, ok_bind, beq_self_eq_true, check_true, ok_bind]
    rw [ih fun s hs => h s (List.mem_cons_of_mem _ hs)]
    exact ite_self _

/-! ### A byte -/

theorem tryValues_ok (d : Bytes) (expected : BitVec 32) {cur : Nat} (hc : cur < d.length) : ∀ vs : List UInt8,
    tryValues expected (crc32 (part d 0 cur) 0) (crc32 (part d (cur + 1) d.length) 0) (d.length - (cur + 1)) vs =
      .ok (vs.find? fun v => decide (crc32 (d.set cur v) 0 = expected)) := by
  intro vs
  induction vs with
  | nil => rfl
  | cons v vs ih =>
    unfold tryValues
    have hset : d.set cur v = (part d 0 cur ++ [v]) ++ part d (cur + 1) d.length := by
      rw [List.set_eq_take_append_cons_drop, if_pos hc, ← drop_part]
      simp [part]
    have := crc32_combine_correct (part d 0 cur ++ [v]) (part d (cur + 1) d.length)
    rw [part_length d (Nat.le_refl _), ← hset, crc32_append] at this
    rw [this, ok_bind, List.find?_cons]
    by_cases h : crc32 (d.set cur v) 0 = expected
    · rw [if_pos h, decide_eq_true h]; rfl
    · rw [if_neg h, decide_eq_false h]; exact ih

/-- What the loop keeps about its part of the range. -/
structure PartOk (d : Bytes) (re skip cur : Nat) (s : FlipState) : Prop where
  start_le : s.start ≤ cur
  start_eq : s.start + s.count % skip = cur
  stop_eq : s.stop = if s.start + skip > re then re else s.start + skip
  before_eq : s.before = crc32 (part d 0 s.start) 0
  after_eq : s.after = crc32 (part d s.stop d.length) 0
  beforeLen_eq : s.beforeLen = s.start
  afterLen_eq : s.afterLen = d.length - s.stop

/-- At the top of the loop. -/
structure LoopOk (d : Bytes) (rs re skip cur : Nat) (s : FlipState) : Prop where
  count_eq : rs + s.count = cur
  part_ok : s.count % skip ≠ 0 → PartOk d re skip cur s

theorem newPart_ok {d : Bytes} {rs re skip cur : Nat} {s : FlipState} (hs : 0 < skip) (hre : re ≤ d.length) (hcur : cur < re)
    (hc : rs + s.count = cur) (h0 : s.count % skip = 0) :
    ∃ s', newPart d rs re skip (precalculate d rs re skip) s = .ok s' ∧ s'.count = s.count ∧ PartOk d re skip cur s' := by
  obtain ⟨i, hi⟩ : ∃ i, s.count = i * skip := by
    obtain ⟨i, hi⟩ := Nat.dvd_of_mod_eq_zero h0
    exact ⟨i, by rw [hi, Nat.mul_comm]⟩
  have k1 := keys_start (d := d) (rs := rs) (re := re) hs (i := i) (by omega)
  have k2 := keys_stop (d := d) (rs := rs) (re := re) hs (i := i) (by omega)
  rw [← hi] at k1 k2
  unfold newPart
  dsimp only
  generalize hstop : (if rs + s.count + skip > re then re else rs + s.count + skip) = stop at k2 ⊢
  have hstop2 : cur ≤ stop ∧ stop ≤ re := by rw [← hstop]; split <;> omega
  rw [get_ok (precalculate_ok _ _ _ _) k1, ok_bind]
  dsimp only
  rw [combine_parts d (Nat.zero_le _) (by omega) (by omega), ok_bind, beq_self_eq_true, check_true, ok_bind,
    get_ok (precalculate_ok _ _ _ _) k2, ok_bind]
  dsimp only
  rw [drop_part, part_length d (Nat.le_refl _), combine_parts d hstop2.2 hre (Nat.le_refl _), ok_bind, ← drop_part, beq_self_eq_true,
    check_true, ok_bind]
  refine ⟨_, rfl, rfl, ?_⟩
  constructor
  · show rs + s.count ≤ cur; omega
  · show rs + s.count + s.count % skip = cur; omega
  · exact hstop.symm
  · rfl
  · exact congrArg (crc32 · 0) (drop_part ..)
  · show (part d 0 rs).length + (rs + s.count - rs) = rs + s.count
    rw [part_length d (by omega)]; omega
  · show re - stop + (d.length - re) = d.length - stop
    omega

theorem flipByte_ok {d : Bytes} {expected : BitVec 32} {mode : FlipMode} {rs re skip cur : Nat} {s : FlipState} (hs : 0 < skip) (hre : re ≤ d.length)
    (hcur : cur < re) (h : LoopOk d rs re skip cur s) {b : UInt8} (hb : d[cur]? = some b) :
    ∃ s', flipByte d expected mode rs re skip (precalculate d rs re skip) s cur =
        .ok (s', (mode.values b).find? fun v => decide (crc32 (d.set cur v) 0 = expected)) ∧ LoopOk d rs re skip (cur + 1) s' := by
  have hp : ∃ s', (if s.count % skip = 0 then newPart d rs re skip (precalculate d rs re skip) s else .ok s : Res FlipState) = .ok s' ∧
      s'.count = s.count ∧ PartOk d re skip cur s' := by
    by_cases h0 : s.count % skip = 0
    · rw [if_pos h0]; exact newPart_ok hs hre hcur h.count_eq h0
    · rw [if_neg h0]; exact ⟨s, rfl, rfl, h.part_ok h0⟩
  obtain ⟨s', hs', hcount, hpart⟩ := hp
  have hmod := Nat.mod_lt s'.count hs
  have hstop : cur < s'.stop ∧ s'.stop ≤ re := by
    have := hpart.start_eq
    rw [hpart.stop_eq]; split <;> omega
  have hle := hpart.start_le
  unfold flipByte
  rw [hs', ok_bind]
  dsimp only
  rw [hpart.before_eq, combine_parts d (Nat.zero_le _) hle (by omega), ok_bind, hpart.beforeLen_eq, part_length d (by omega),
    show (s'.start + (cur - s'.start) == cur - 0) = true by rw [beq_iff_eq]; omega, check_true, ok_bind, beq_self_eq_true, check_true, ok_bind,
    part_length d (by omega), show (s'.stop - cur - 1 == s'.stop - (cur + 1)) = true by rw [beq_iff_eq]; omega, check_true, ok_bind,
    hpart.after_eq, hpart.afterLen_eq, combine_parts d (by omega) (by omega) (Nat.le_refl _), ok_bind, ← drop_part, beq_self_eq_true, check_true, ok_bind, hb]
  dsimp only
  rw [ok_bind, show s'.stop - cur - 1 + (d.length - s'.stop) = d.length - (cur + 1) by omega, drop_part, tryValues_ok d expected (by omega), ok_bind]
  refine ⟨_, rfl, ?_⟩
  constructor
  · show rs + (s'.count + 1) = cur + 1
    have := h.count_eq
    omega
  · intro hne
    have hne : (s'.count + 1) % skip ≠ 0 := hne
    have hm : (s'.count + 1) % skip = s'.count % skip + 1 := by
      by_cases hlast : s'.count % skip + 1 = skip
      · exfalso; apply hne
        rw [← Nat.mod_add_mod, hlast, Nat.mod_self]
      · rw [← Nat.mod_add_mod, Nat.mod_eq_of_lt (by omega)]
    constructor
    · show s'.start ≤ cur + 1; omega
    · show s'.start + (s'.count + 1) % skip = cur + 1
      have := hpart.start_eq
      omega
    · exact hpart.stop_eq
    · rfl
    · rfl
    · rfl
    · rfl

/-! ### The loop -/

/-- The first byte with a value that gives the checksum. -/
def firstFix (d : Bytes) (expected : BitVec 32) (mode : FlipMode) : List Nat → Option (Nat × Bytes)
  | [] => none
  | cur :: rest =>
    match (mode.values (d[cur]?.getD 0)).find? (fun v => decide (crc32 (d.set cur v) 0 = expected)) with
    | some v => some (cur, d.set cur v)
    | none => firstFix d expected mode rest

theorem flipLoop_ok {d : Bytes} {expected : BitVec 32} {mode : FlipMode} {rs re skip : Nat} (hs : 0 < skip) (hre : re ≤ d.length) :
    ∀ (n cur : Nat) (s : FlipState), cur + n = re → LoopOk d rs re skip cur s →
      flipLoop d expected mode rs re skip (precalculate d rs re skip) s ((List.range n).map (cur + ·)) =
        .ok (firstFix d expected mode ((List.range n).map (cur + ·))) := by
  intro n
  induction n with
  | zero => intro cur s _ _; rfl
  | succ n ih =>
    intro cur s hn h
    have hl : (List.range (n + 1)).map (cur + ·) = cur :: (List.range n).map (cur + 1 + ·) := by
      rw [List.range_succ_eq_map, List.map_cons, List.map_map, Nat.add_zero]
      congr 1
      apply List.map_congr_left
      intro x _
      show cur + (x + 1) = cur + 1 + x
      omega
    rw [hl]
    have hlt : cur < d.length := by omega
    obtain ⟨s', h1, h2⟩ := flipByte_ok (expected := expected) (mode := mode) hs hre (by omega) h (List.getElem?_eq_getElem hlt)
    unfold flipLoop firstFix
    rw [h1, ok_bind]
    dsimp only
    rw [List.getElem?_eq_getElem hlt, Option.getD_some]
    split
    · next v hv =>
      rw [hv]
      dsimp only
      rw [List.set_eq_take_append_cons_drop, if_pos hlt]
      simp [part]
    · next hv =>
      rw [hv]
      exact ih (cur + 1) s' (by omega) h2

end Rescene
