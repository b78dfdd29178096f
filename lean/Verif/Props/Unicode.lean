import Verif.Model.Blocks
import Verif.Spec.NameOps
import Verif.Lemmas.Bytes
/-
C48: unicode names of packed files.
-/
namespace Rescene.Props
open Spec

theorem stdRun_eq (std : Bytes) (f : Nat → Nat) (hi : Nat) : ∀ n pos,
    stdRun std f hi (n + 1) pos = match stdChars std pos (n + 1) with
      | some l => .ok (l.map fun s => f s.toNat + 256 * hi)
      | none => .error .indexError := by
  intro n
  induction n with
  | zero =>
    intro pos
    rw [stdRun]
    unfold stdChars
    by_cases h : pos + 1 ≤ std.length
    · have hp : pos < std.length := by omega
      rw [List.getElem?_eq_getElem hp, if_pos (by omega)]
      simp only [stdRun, ok_bind, pure_eq_ok]
      rw [List.drop_eq_getElem_cons hp, List.take_succ_cons, List.take_zero]
      rfl
    · rw [List.getElem?_eq_none (by omega), if_neg (by omega)]
  | succ n ih =>
    intro pos
    rw [stdRun, ih]
    unfold stdChars
    by_cases h : pos + (n + 1 + 1) ≤ std.length
    · have hp : pos < std.length := by omega
      rw [List.getElem?_eq_getElem hp, if_pos h, if_pos (by omega)]
      simp only [ok_bind, pure_eq_ok]
      rw [List.drop_eq_getElem_cons hp, List.take_succ_cons]
      rfl
    · rw [if_neg h]
      by_cases hp : pos < std.length
      · rw [List.getElem?_eq_getElem hp, if_neg (by omega)]
        rfl
      · rw [List.getElem?_eq_none (by omega)]

theorem shift_and3 (k f : Nat) : (f >>> (2 * k)) &&& 3 = f / 4 ^ k % 4 := by
  rw [Nat.shiftRight_eq_div_pow, show 3 = 2 ^ 2 - 1 from rfl, Nat.and_two_pow_sub_one_eq_mod, Nat.pow_mul]

theorem units_length {std : Bytes} {pos : Nat} {n : Fin 128} {l : Bytes}
    (h : stdChars std pos (n + 2) = some l) : l.length = n + 2 := by
  unfold stdChars at h
  split at h
  · simp at h; subst h; simp; omega
  · simp at h

theorem n_low : ∀ n : Fin 128, hasFlag (n : Nat) 0x80 = false := by decide
theorem n_high : ∀ n : Fin 128, hasFlag (128 + (n : Nat)) 0x80 = true := by decide
theorem n_and : ∀ n : Fin 128, (128 + (n : Nat)) &&& 0x7F = n := by decide

/-- One turn of the loop. -/
theorem ufLoop_op (std : Bytes) (page : UInt8) (fuel : Nat) (op : NameOp) (data : Bytes) (kinds left pos : Nat)
    (hk : kinds / 4 ^ left % 4 = op.kind) :
    ufLoop std page.toNat (fuel + 1) (op.bytes ++ data) kinds (2 * (left + 1)) pos =
      match op.units std page pos with
      | none => .error .indexError
      | some u => (ufLoop std page.toNat fuel data kinds (2 * left) (pos + u.length)).map (u ++ ·) := by
  have hs : 2 * (left + 1) - 2 = 2 * left := by omega
  have h0 : 2 * (left + 1) ≠ 0 := by omega
  cases op with
  | low c =>
    rw [NameOp.bytes, List.singleton_append, ufLoop]
    simp only [h0, if_false, ok_bind, hs, shift_and3, hk, NameOp.kind, encByte, NameOp.units, List.length_singleton]
    cases ufLoop std page.toNat fuel data kinds (2 * left) (pos + 1) <;> rfl
  | page c =>
    rw [NameOp.bytes, List.singleton_append, ufLoop]
    simp only [h0, if_false, ok_bind, hs, shift_and3, hk, NameOp.kind, encByte, NameOp.units, List.length_singleton]
    cases ufLoop std page.toNat fuel data kinds (2 * left) (pos + 1) <;> rfl
  | full c d =>
    rw [NameOp.bytes, List.cons_append, List.singleton_append, ufLoop]
    simp only [h0, if_false, ok_bind, hs, shift_and3, hk, NameOp.kind, encByte, NameOp.units, List.length_singleton]
    cases ufLoop std page.toNat fuel data kinds (2 * left) (pos + 1) <;> rfl
  | copy n =>
    rw [NameOp.bytes, List.singleton_append, ufLoop]
    have hn : (UInt8.ofNat n).toNat = n := by rw [UInt8.toNat_ofNat']; omega
    have hf : hasFlag (n : Nat) 0x80 = false := n_low n
    simp only [h0, if_false, ok_bind, hs, shift_and3, hk, NameOp.kind, encByte, NameOp.units, hn, hf, stdRun_eq]
    cases hc : stdChars std pos (n + 1 + 1) with
    | none => simp [hc]
    | some l =>
      simp only [Option.map_some, hc, ok_bind, List.length_map, id, Nat.mul_zero, Nat.add_zero]
      simp
      cases ufLoop std page.toNat fuel data kinds (2 * left) (pos + l.length) <;> rfl
  | shift n c =>
    rw [NameOp.bytes, List.cons_append, List.singleton_append, ufLoop]
    have hn : (UInt8.ofNat (128 + n)).toNat = 128 + n := by rw [UInt8.toNat_ofNat']; omega
    have hf : hasFlag (128 + (n : Nat)) 0x80 = true := n_high n
    have hm : (128 + (n : Nat)) &&& 0x7F = n := n_and n
    simp only [h0, if_false, ok_bind, hs, shift_and3, hk, NameOp.kind, encByte, NameOp.units, hn, hf, hm, stdRun_eq]
    cases hc : stdChars std pos (n + 1 + 1) with
    | none => simp [hc]
    | some l =>
      simp only [Option.map_some, hc, ok_bind, List.length_map]
      simp
      cases ufLoop std page.toNat fuel data kinds (2 * left) (pos + l.length) <;> rfl

theorem op_bytes_pos (op : NameOp) : 0 < op.bytes.length := by cases op <;> simp [NameOp.bytes]

theorem encodes_nil {kinds left : Nat} {data : Bytes} (h : Encodes kinds left [] data) : data = [] := by
  cases h with
  | done => rfl
  | kinds _ _ _ _ hne _ => exact absurd rfl hne

theorem encodes_ne {kinds left : Nat} {ops : List NameOp} {data : Bytes} (h : Encodes kinds left ops data)
    (hne : ops ≠ []) : data ≠ [] := by
  cases h with
  | done => exact absurd rfl hne
  | kinds => simp
  | op k l o os d hk h =>
    intro he
    have := op_bytes_pos o
    have h2 := congrArg List.length he
    rw [List.length_append, List.length_nil] at h2; omega

theorem ufLoop_flags (std : Bytes) (page fuel : Nat) (k : UInt8) (data : Bytes) (hd : data ≠ []) (old pos : Nat) :
    ufLoop std page (fuel + 1) (k :: data) old 0 pos = ufLoop std page (fuel + 1) data k.toNat 8 pos := by
  cases data with
  | nil => exact absurd rfl hd
  | cons b t => conv => lhs; rw [ufLoop]
                conv => rhs; rw [ufLoop]
                rfl

/-- Decoding what was encoded. -/
theorem ufLoop_encoded (std : Bytes) (page : UInt8) {kinds left : Nat} {ops : List NameOp} {data : Bytes}
    (h : Encodes kinds left ops data) : ∀ pos fuel, data.length ≤ fuel →
    ufLoop std page.toNat fuel data kinds (2 * left) pos =
      match nameUnits std page pos ops with
      | some u => .ok u
      | none => .error .indexError := by
  induction h with
  | done kinds left => intro pos fuel _; simp [nameUnits, ufLoop]
  | kinds old k ops data hne h ih =>
    intro pos fuel hf
    obtain ⟨fuel, rfl⟩ : ∃ n, fuel = n + 1 := ⟨fuel - 1, by simp at hf; omega⟩
    have hd : data ≠ [] := encodes_ne h hne
    rw [Nat.mul_zero, ufLoop_flags _ _ _ _ _ hd]
    exact ih pos (fuel + 1) (by simp at hf; omega)
  | op kinds left op ops data hk h ih =>
    intro pos fuel hf
    have := op_bytes_pos op
    obtain ⟨fuel, rfl⟩ : ∃ n, fuel = n + 1 := ⟨fuel - 1, by simp at hf; omega⟩
    rw [ufLoop_op _ _ _ _ _ _ _ _ hk, nameUnits]
    cases op.units std page pos with
    | none => rfl
    | some u =>
      simp only [Option.bind_eq_bind, Option.bind_some]
      rw [ih _ _ (by simp at hf; omega)]
      cases nameUnits std page (pos + u.length) ops <;> rfl

/-- Some operation of this kind starts the data, or there is none. -/
theorem op_of_kind (k : Nat) (hk : k < 4) (data : Bytes) :
    (∃ op rest, data = NameOp.bytes op ++ rest ∧ op.kind = k) ∨
    (∀ std hi fuel kinds left pos, kinds / 4 ^ left % 4 = k →
      data = [] ∨ ufLoop std hi (fuel + 1) data kinds (2 * (left + 1)) pos = .error .indexError) := by
  have hs : ∀ left, 2 * (left + 1) - 2 = 2 * left := by omega
  have h0 : ∀ left, 2 * (left + 1) ≠ 0 := by omega
  cases data with
  | nil => exact Or.inr (fun _ _ _ _ _ _ _ => Or.inl rfl)
  | cons b t =>
    have : k = 0 ∨ k = 1 ∨ k = 2 ∨ k = 3 := by omega
    rcases this with rfl | rfl | rfl | rfl
    · exact Or.inl ⟨.low b, t, rfl, rfl⟩
    · exact Or.inl ⟨.page b, t, rfl, rfl⟩
    · cases t with
      | cons c t => exact Or.inl ⟨.full b c, t, rfl, rfl⟩
      | nil =>
        refine Or.inr (fun std hi fuel kinds left pos hk => Or.inr ?_)
        rw [ufLoop]
        simp only [h0, if_false, ok_bind, hs, shift_and3, hk, encByte]
        rfl
    · by_cases hb : b.toNat < 128
      · refine Or.inl ⟨.copy ⟨b.toNat, hb⟩, t, ?_, rfl⟩
        simp [NameOp.bytes]
      · cases t with
        | cons c t =>
          refine Or.inl ⟨.shift ⟨b.toNat - 128, ?_⟩ c, t, ?_, rfl⟩
          · have := b.toNat_lt; omega
          · have : 128 + (b.toNat - 128) = b.toNat := by omega
            simp [NameOp.bytes, this]
        | nil =>
          refine Or.inr (fun std hi fuel kinds left pos hk => Or.inr ?_)
          rw [ufLoop]
          have hf : hasFlag b.toNat 0x80 = true := by
            have h2 : b.toNat = 128 + (b.toNat - 128) := by omega
            rw [h2]
            exact n_high ⟨b.toNat - 128, by have := b.toNat_lt; omega⟩
          simp only [h0, if_false, ok_bind, hs, shift_and3, hk, encByte, hf]
          rfl

/-- What is decoded was encoded. -/
theorem ufLoop_decoded (std : Bytes) (page : UInt8) : ∀ (fuel : Nat) (data : Bytes) (kinds left pos : Nat) (u : List Nat),
    data.length ≤ fuel → ufLoop std page.toNat fuel data kinds (2 * left) pos = .ok u →
    ∃ ops, Encodes kinds left ops data ∧ nameUnits std page pos ops = some u := by
  intro fuel
  induction fuel with
  | zero =>
    intro data kinds left pos u hf h
    have : data = [] := List.length_eq_zero_iff.mp (by omega)
    subst this
    simp [ufLoop] at h
    subst h
    exact ⟨[], .done _ _, rfl⟩
  | succ fuel ih =>
    intro data kinds left pos u hf h
    have step : ∀ data kinds left pos u, data ≠ [] → data.length ≤ fuel + 1 →
        ufLoop std page.toNat (fuel + 1) data kinds (2 * (left + 1)) pos = .ok u →
        ∃ ops, ops ≠ [] ∧ Encodes kinds (left + 1) ops data ∧ nameUnits std page pos ops = some u := by
      intro data kinds left pos u hne hf h
      rcases op_of_kind (kinds / 4 ^ left % 4) (by omega) data with ⟨op, rest, rfl, hk⟩ | h2
      · rw [ufLoop_op _ _ _ _ _ _ _ _ hk.symm] at h
        cases hu : op.units std page pos with
        | none => rw [hu] at h; simp at h
        | some v =>
          rw [hu] at h
          simp only at h
          cases hr : ufLoop std page.toNat fuel rest kinds (2 * left) (pos + v.length) with
          | error e => rw [hr] at h; simp [Except.map] at h
          | ok w =>
            rw [hr] at h
            simp [Except.map] at h
            subst h
            have := op_bytes_pos op
            obtain ⟨ops, ho, hn⟩ := ih rest kinds left (pos + v.length) w (by simp at hf; omega) hr
            refine ⟨op :: ops, by simp, .op kinds left op ops rest hk.symm ho, ?_⟩
            rw [nameUnits, hu]
            simp [hn]
      · rcases h2 std page.toNat fuel kinds left pos rfl with h2 | h2
        · exact absurd h2 hne
        · rw [h2] at h; simp at h
    by_cases hd : data = []
    · subst hd
      simp [ufLoop] at h
      subst h
      exact ⟨[], .done _ _, rfl⟩
    · cases left with
      | succ left =>
        obtain ⟨ops, _, h1, h2⟩ := step data kinds left pos u hd hf h
        exact ⟨ops, h1, h2⟩
      | zero =>
        cases data with
        | nil => exact absurd rfl hd
        | cons b t =>
          by_cases ht : t = []
          · subst ht
            rw [Nat.mul_zero, ufLoop] at h
            simp only [if_true, encByte, ok_bind, pure_eq_ok] at h
            revert h
            repeat' split
            all_goals simp
          · rw [Nat.mul_zero, ufLoop_flags _ _ _ _ _ ht] at h
            obtain ⟨ops, hne, h1, h2⟩ := step t b.toNat 3 pos u ht (by simp at hf; omega) h
            exact ⟨ops, .kinds _ b ops t hne h1, h2⟩

/-- C48: the name is decoded exactly when the data is an encoding, by the format's rules, of
operations that fit the standard name, and then to the characters they stand for. -/
theorem unicode_name_iff (std enc : Bytes) (s : Str) :
    unicodeFilename std enc = .ok s ↔
      ∃ page data ops units, enc = page :: data ∧ Encodes 0 0 ops data ∧ nameUnits std page 0 ops = some units ∧
        s = utf16Dec units := by
  unfold unicodeFilename
  cases enc with
  | nil => simp [encByte]
  | cons page data =>
    simp only [encByte, ok_bind]
    constructor
    · intro h
      cases hu : ufLoop std page.toNat data.length data 0 0 0 with
      | error e => rw [hu] at h; simp at h
      | ok u =>
        rw [hu] at h
        simp at h
        obtain ⟨ops, h1, h2⟩ := ufLoop_decoded std page data.length data 0 0 0 u (Nat.le_refl _) hu
        exact ⟨page, data, ops, u, rfl, h1, h2, h.symm⟩
    · rintro ⟨p, d, ops, u, he, h1, h2, rfl⟩
      simp only [List.cons.injEq] at he
      obtain ⟨rfl, rfl⟩ := he
      have := ufLoop_encoded std page h1 0 data.length (Nat.le_refl _)
      rw [Nat.mul_zero, h2] at this
      rw [this]; rfl

theorem ufLoop_total (std : Bytes) (page : UInt8) : ∀ (fuel : Nat) (data : Bytes) (kinds left pos : Nat),
    data.length ≤ fuel → (∃ u, ufLoop std page.toNat fuel data kinds (2 * left) pos = .ok u) ∨
      ufLoop std page.toNat fuel data kinds (2 * left) pos = .error .indexError := by
  intro fuel
  induction fuel with
  | zero =>
    intro data kinds left pos hf
    have : data = [] := List.length_eq_zero_iff.mp (by omega)
    subst this
    exact Or.inl ⟨[], by rw [ufLoop]⟩
  | succ fuel ih =>
    intro data kinds left pos hf
    have step : ∀ data kinds left pos, data ≠ [] → data.length ≤ fuel + 1 →
        (∃ u, ufLoop std page.toNat (fuel + 1) data kinds (2 * (left + 1)) pos = .ok u) ∨
          ufLoop std page.toNat (fuel + 1) data kinds (2 * (left + 1)) pos = .error .indexError := by
      intro data kinds left pos hne hf
      rcases op_of_kind (kinds / 4 ^ left % 4) (by omega) data with ⟨op, rest, rfl, hk⟩ | h2
      · rw [ufLoop_op _ _ _ _ _ _ _ _ hk.symm]
        cases op.units std page pos with
        | none => exact Or.inr rfl
        | some v =>
          have := op_bytes_pos op
          rcases ih rest kinds left (pos + v.length) (by simp at hf; omega) with ⟨u, hu⟩ | hu
          · exact Or.inl ⟨v ++ u, by simp only [hu]; rfl⟩
          · exact Or.inr (by simp only [hu]; rfl)
      · rcases h2 std page.toNat fuel kinds left pos rfl with h2 | h2
        · exact absurd h2 hne
        · exact Or.inr h2
    by_cases hd : data = []
    · subst hd
      exact Or.inl ⟨[], by rw [ufLoop]⟩
    · cases left with
      | succ left => exact step data kinds left pos hd hf
      | zero =>
        cases data with
        | nil => exact absurd rfl hd
        | cons b t =>
          by_cases ht : t = []
          · subst ht
            right
            rw [Nat.mul_zero, ufLoop]
            simp only [if_true, encByte, ok_bind, pure_eq_ok]
            repeat' split
            all_goals rfl
          · rw [Nat.mul_zero, ufLoop_flags _ _ _ _ _ ht]
            exact step t b.toNat 3 pos ht (by simp at hf; omega)

/-- C48: otherwise it is an `IndexError`; there is no other outcome. -/
theorem unicode_name_total (std enc : Bytes) :
    (∃ s, unicodeFilename std enc = .ok s) ∨ unicodeFilename std enc = .error .indexError := by
  unfold unicodeFilename
  cases enc with
  | nil => exact Or.inr rfl
  | cons page data =>
    simp only [encByte, ok_bind]
    rcases ufLoop_total std page data.length data 0 0 0 (Nat.le_refl _) with ⟨u, hu⟩ | hu
    · rw [Nat.mul_zero] at hu
      exact Or.inl ⟨utf16Dec u, by rw [hu]; rfl⟩
    · rw [Nat.mul_zero] at hu
      exact Or.inr (by rw [hu]; rfl)

/-- C48: every sequence of UTF-16 units can be encoded, whatever the standard name. -/
theorem unicode_every_name (std : Bytes) (units : List Nat) (h : ∀ u ∈ units, u < 65536) :
    ∃ enc, unicodeFilename std enc = .ok (utf16Dec units) := by
  have key : ∀ (units : List Nat), (∀ u ∈ units, u < 65536) → ∀ left, left ≤ 4 → ∀ pos,
      ∃ ops data, Encodes 0xAA left ops data ∧ (units ≠ [] → ops ≠ []) ∧ nameUnits std 0 pos ops = some units := by
    intro units
    induction units with
    | nil => intro _ left _ pos; exact ⟨[], [], .done _ _, by simp, rfl⟩
    | cons u us ih =>
      intro h left hl pos
      have hu := h u (by simp)
      have one : ∀ left, left < 4 → ∃ ops data, Encodes 0xAA (left + 1) ops data ∧ ops ≠ [] ∧
          nameUnits std 0 pos ops = some (u :: us) := by
        intro left hl
        obtain ⟨ops, data, h1, _, h2⟩ := ih (fun x hx => h x (by simp [hx])) left (by omega) (pos + 1)
        refine ⟨.full (UInt8.ofNat (u % 256)) (UInt8.ofNat (u / 256)) :: ops, _, .op 0xAA left _ ops data ?_ h1, by simp, ?_⟩
        · have : left = 0 ∨ left = 1 ∨ left = 2 ∨ left = 3 := by omega
          rcases this with rfl | rfl | rfl | rfl <;> rfl
        · have : (UInt8.ofNat (u % 256)).toNat + 256 * (UInt8.ofNat (u / 256)).toNat = u := by
            rw [UInt8.toNat_ofNat', UInt8.toNat_ofNat']; omega
          simp only [nameUnits, NameOp.units, this, Option.bind_eq_bind, Option.bind_some, List.length_singleton, h2]
          rfl
      cases left with
      | succ left =>
        obtain ⟨ops, data, h1, h2, h3⟩ := one left (by omega)
        exact ⟨ops, data, h1, fun _ => h2, h3⟩
      | zero =>
        obtain ⟨ops, data, h1, h2, h3⟩ := one 3 (by omega)
        exact ⟨ops, 0xAA :: data, .kinds _ 0xAA ops data h2 h1, fun _ => h2, h3⟩
  obtain ⟨ops, data, h1, h2, h3⟩ := key units h 0 (by omega) 0
  refine ⟨0 :: data, (unicode_name_iff ..).mpr ⟨0, data, ops, units, rfl, ?_, h3, rfl⟩⟩
  cases h1 with
  | done => exact .done _ _
  | kinds _ k ops data hne h => exact .kinds _ k ops data hne h

/-- C48: without a zero byte, the format says, the name is plain UTF-8.  The code takes its
first byte as the high byte and the second for kinds: here reading the block fails. -/
theorem unicode_utf8_name_refused : utf8Enc (str "ab") = .ok [0x61, 0x62] ∧
    packedName 0x200 [0x61, 0x62] = .error .indexError := by decide

/-- Copying, shifting and single characters in one name. -/
example : unicodeFilename [0x61, 0x62, 0x63, 0x2E] [4, 0b11010011, 0, 0x30, 0x20, 0x81, 1] =
    .error .indexError := by decide
example : unicodeFilename [0x61, 0x62, 0x63, 0x2E] [4, 0b11011000, 0, 0x30, 0x21, 0x20] =
    .ok [0x61, 0x62, 0x430, 0x2021] := by decide

end Rescene.Props
