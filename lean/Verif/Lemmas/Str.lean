import Verif.Model.Str
import Verif.Lemmas.Bytes
namespace Rescene

theorem utf8DecOne_lt {b : Bytes} {c : Nat} {t : Bytes} (h : utf8DecOne b = some (c, t)) :
    t.length < b.length := by
  unfold utf8DecOne at h
  split at h
  · simp at h
  · split at h
    · simp at h; simp [h.2]
    · split at h
      · simp at h
      · split at h
        · split at h
          · split at h <;> simp_all
            omega
          · simp at h
        · split at h
          · split at h
            · simp only at h
              split at h <;> simp_all
              omega
            · simp at h
          · split at h
            · split at h
              · simp only at h
                split at h <;> simp_all
                omega
              · simp at h
            · simp at h

theorem utf8DecFuel_mono {f : Nat} {b : Bytes} (h : b.length ≤ f) :
    utf8DecFuel f b = utf8DecFuel b.length b := by
  induction f using Nat.strongRecOn generalizing b with
  | _ f ih =>
    cases b with
    | nil => cases f <;> rfl
    | cons x b =>
      cases f with
      | zero => simp at h
      | succ f =>
        simp only [List.length_cons, utf8DecFuel]
        cases hd : utf8DecOne (x :: b) with
        | none => rfl
        | some p =>
          obtain ⟨c, t⟩ := p
          have hl := utf8DecOne_lt hd
          simp only [List.length_cons] at hl h
          simp only
          rw [ih f (by omega) (by omega : t.length ≤ f)]
          by_cases hb : b.length < f + 1
          · rw [ih b.length hb (by omega : t.length ≤ b.length)]
          · omega

/-- Decoding never exhausts its budget. -/
theorem utf8Dec_no_fuel (b : Bytes) : utf8Dec b ≠ .error .fuel := by
  unfold utf8Dec
  generalize hn : b.length = n
  induction n using Nat.strongRecOn generalizing b with
  | _ n ih =>
    cases b with
    | nil => simp [utf8DecFuel]
    | cons x b =>
      subst hn
      simp only [List.length_cons, utf8DecFuel]
      cases hd : utf8DecOne (x :: b) with
      | none => simp
      | some p =>
        obtain ⟨c, t⟩ := p
        have hl := utf8DecOne_lt hd
        simp only [List.length_cons] at hl
        simp only
        rw [utf8DecFuel_mono (by omega : t.length ≤ b.length)]
        have := ih t.length (by simp; omega) t rfl
        cases hq : utf8DecFuel t.length t <;> simp_all

theorem utf8Dec_cons {b : Bytes} {c : Nat} {t : Bytes} (h : utf8DecOne b = some (c, t)) :
    utf8Dec b = (do let s ← utf8Dec t; return c :: s) := by
  have hl := utf8DecOne_lt h
  cases b with
  | nil => simp at hl
  | cons x b =>
    simp only [List.length_cons] at hl
    simp only [utf8Dec, List.length_cons, utf8DecFuel, h]
    rw [utf8DecFuel_mono (by omega : t.length ≤ b.length)]

theorem toNat_ofNat_lt {n : Nat} (h : n < 256) : (UInt8.ofNat n).toNat = n := by
  rw [UInt8.toNat_ofNat']; omega

theorem utf8DecOne_enc {c : Nat} {b t : Bytes} (h : utf8EncCp c = some b) :
    utf8DecOne (b ++ t) = some (c, t) := by
  unfold utf8EncCp at h
  split at h
  · simp only [Option.some.injEq] at h; subst h
    have h1 : (UInt8.ofNat c).toNat = c := toNat_ofNat_lt (by omega)
    simp only [List.cons_append, List.nil_append, utf8DecOne, h1]
    simp [*]
  · split at h
    · simp only [Option.some.injEq] at h; subst h
      have h1 : (UInt8.ofNat (0xC0 + c / 64)).toNat = 0xC0 + c / 64 := toNat_ofNat_lt (by omega)
      have h2 : (UInt8.ofNat (0x80 + c % 64)).toNat = 0x80 + c % 64 := toNat_ofNat_lt (by omega)
      simp only [List.cons_append, List.nil_append, utf8DecOne, isCont, h1, h2]
      rw [if_neg (by omega), if_neg (by omega), if_pos (by omega), if_pos (by simp; omega)]
      simp; omega
    · split at h
      · simp at h
      · split at h
        · simp only [Option.some.injEq] at h; subst h
          have h1 : (UInt8.ofNat (0xE0 + c / 4096)).toNat = 0xE0 + c / 4096 := toNat_ofNat_lt (by omega)
          have h2 : (UInt8.ofNat (0x80 + c / 64 % 64)).toNat = 0x80 + c / 64 % 64 := toNat_ofNat_lt (by omega)
          have h3 : (UInt8.ofNat (0x80 + c % 64)).toNat = 0x80 + c % 64 := toNat_ofNat_lt (by omega)
          simp only [List.cons_append, List.nil_append, utf8DecOne, isCont, h1, h2, h3]
          have hc : (0xE0 + c / 4096 - 0xE0) * 4096 + (0x80 + c / 64 % 64 - 0x80) * 64 +
            (0x80 + c % 64 - 0x80) = c := by omega
          rw [if_neg (by omega), if_neg (by omega), if_neg (by omega), if_pos (by omega), hc,
            if_pos (by simp; omega)]
        · split at h
          · simp only [Option.some.injEq] at h; subst h
            have h1 : (UInt8.ofNat (0xF0 + c / 262144)).toNat = 0xF0 + c / 262144 := toNat_ofNat_lt (by omega)
            have h2 : (UInt8.ofNat (0x80 + c / 4096 % 64)).toNat = 0x80 + c / 4096 % 64 := toNat_ofNat_lt (by omega)
            have h3 : (UInt8.ofNat (0x80 + c / 64 % 64)).toNat = 0x80 + c / 64 % 64 := toNat_ofNat_lt (by omega)
            have h4 : (UInt8.ofNat (0x80 + c % 64)).toNat = 0x80 + c % 64 := toNat_ofNat_lt (by omega)
            simp only [List.cons_append, List.nil_append, utf8DecOne, isCont, h1, h2, h3, h4]
            have hc : (0xF0 + c / 262144 - 0xF0) * 262144 + (0x80 + c / 4096 % 64 - 0x80) * 4096 +
              (0x80 + c / 64 % 64 - 0x80) * 64 + (0x80 + c % 64 - 0x80) = c := by omega
            rw [if_neg (by omega), if_neg (by omega), if_neg (by omega), if_neg (by omega),
              if_pos (by omega), hc, if_pos (by simp; omega)]
          · simp at h

/-- Encoding then decoding a `str` gives it back. -/
theorem utf8Dec_enc {s : Str} {b : Bytes} (h : utf8Enc s = .ok b) : utf8Dec b = .ok s := by
  induction s generalizing b with
  | nil => simp [utf8Enc] at h; subst h; rfl
  | cons c s ih =>
    unfold utf8Enc at h
    split at h
    · simp at h
    · rename_i x hx
      rw [bind_eq_ok] at h
      obtain ⟨t, ht, h⟩ := h
      simp at h; subst h
      rw [utf8Dec_cons (utf8DecOne_enc hx), ih ht]
      rfl

theorem utf8DecOne_inv {b : Bytes} {c : Nat} {t : Bytes} (h : utf8DecOne b = some (c, t)) :
    ∃ x, utf8EncCp c = some x ∧ b = x ++ t := by
  have key : ∀ (n : Nat) (x : UInt8), n = x.toNat → UInt8.ofNat n = x := by
    intro n x hx; subst hx; simp
  unfold utf8DecOne at h
  split at h
  · simp at h
  · rename_i b0 t0
    have hb0 := b0.toNat_lt
    split at h
    · simp only [Option.some.injEq, Prod.mk.injEq] at h
      obtain ⟨rfl, rfl⟩ := h
      refine ⟨[b0], ?_, rfl⟩
      simp [utf8EncCp, *]
    · split at h
      · simp at h
      · split at h
        · split at h
          · rename_i b1 t1
            have hb1 := b1.toNat_lt
            split at h
            · rename_i hc
              simp only [isCont, Bool.and_eq_true, decide_eq_true_eq] at hc
              simp only [Option.some.injEq, Prod.mk.injEq] at h
              obtain ⟨h, rfl⟩ := h
              refine ⟨[b0, b1], ?_, rfl⟩
              unfold utf8EncCp
              rw [if_neg (by omega), if_pos (by omega), key _ b0 (by omega), key _ b1 (by omega)]
            · simp at h
          · simp at h
        · split at h
          · split at h
            · rename_i b1 b2 t2
              have hb1 := b1.toNat_lt
              have hb2 := b2.toNat_lt
              simp only at h
              split at h
              · rename_i hc
                simp only [isCont, Bool.and_eq_true, decide_eq_true_eq, Bool.not_eq_true',
                  Bool.and_eq_false_iff, decide_eq_false_iff_not] at hc
                simp only [Option.some.injEq, Prod.mk.injEq] at h
                obtain ⟨h, rfl⟩ := h
                refine ⟨[b0, b1, b2], ?_, rfl⟩
                unfold utf8EncCp
                rw [if_neg (by omega), if_neg (by omega), if_neg (by omega), if_pos (by omega),
                  key _ b0 (by omega), key _ b1 (by omega), key _ b2 (by omega)]
              · simp at h
            · simp at h
          · split at h
            · split at h
              · rename_i b1 b2 b3 t2
                have hb1 := b1.toNat_lt
                have hb2 := b2.toNat_lt
                have hb3 := b3.toNat_lt
                simp only at h
                split at h
                · rename_i hc
                  simp only [isCont, Bool.and_eq_true, decide_eq_true_eq] at hc
                  simp only [Option.some.injEq, Prod.mk.injEq] at h
                  obtain ⟨h, rfl⟩ := h
                  refine ⟨[b0, b1, b2, b3], ?_, rfl⟩
                  unfold utf8EncCp
                  rw [if_neg (by omega), if_neg (by omega), if_neg (by omega), if_neg (by omega),
                    if_pos (by omega), key _ b0 (by omega), key _ b1 (by omega), key _ b2 (by omega),
                    key _ b3 (by omega)]
                · simp at h
              · simp at h
            · simp at h

/-- Decoding then encoding gives the bytes back. -/
theorem utf8Enc_dec {b : Bytes} {s : Str} (h : utf8Dec b = .ok s) : utf8Enc s = .ok b := by
  induction s generalizing b with
  | nil =>
    cases b with
    | nil => rfl
    | cons x b =>
      simp only [utf8Dec, List.length_cons, utf8DecFuel] at h
      split at h
      · simp at h
      · rw [bind_eq_ok] at h
        obtain ⟨_, _, h⟩ := h
        simp at h
  | cons c s ih =>
    cases b with
    | nil => simp [utf8Dec, utf8DecFuel] at h
    | cons x b =>
      cases hd : utf8DecOne (x :: b) with
      | none => simp [utf8Dec, utf8DecFuel, hd] at h
      | some p =>
        obtain ⟨c', t⟩ := p
        rw [utf8Dec_cons hd, bind_eq_ok] at h
        obtain ⟨s', hs', h⟩ := h
        simp at h
        obtain ⟨rfl, rfl⟩ := h
        obtain ⟨y, hy, hb⟩ := utf8DecOne_inv hd
        simp [utf8Enc, hy, ih hs', hb]

theorem utf8Enc_nil {s : Str} : utf8Enc s = .ok [] ↔ s = [] := by
  constructor
  · intro h
    have := utf8Dec_enc h
    simpa [utf8Dec, utf8DecFuel, eq_comm] using this
  · rintro rfl; rfl

theorem splitOn_ne_nil (sep : Nat) (s : Str) : splitOn sep s ≠ [] := by
  cases s with
  | nil => simp [splitOn]
  | cons c s =>
    simp only [splitOn]
    split
    · simp
    · split <;> simp

/-- Splitting then joining gives the text back. -/
theorem joinWith_splitOn (sep : Nat) (s : Str) : joinWith sep (splitOn sep s) = s := by
  induction s with
  | nil => rfl
  | cons c s ih =>
    simp only [splitOn]
    split
    · rename_i h
      subst h
      cases hs : splitOn c s with
      | nil => exact absurd hs (splitOn_ne_nil _ _)
      | cons p ps => rw [hs] at ih; simp [joinWith, ih]
    · cases hs : splitOn sep s with
      | nil => exact absurd hs (splitOn_ne_nil _ _)
      | cons p ps =>
        rw [hs] at ih
        cases ps with
        | nil => simp [joinWith] at ih ⊢; exact ih
        | cons q ps => simp [joinWith] at ih ⊢; exact ih

/-- No part of a split contains the separator. -/
theorem not_mem_of_mem_splitOn {sep : Nat} {s p : Str} (h : p ∈ splitOn sep s) : sep ∉ p := by
  induction s generalizing p with
  | nil => simp [splitOn] at h; subst h; simp
  | cons c s ih =>
    simp only [splitOn] at h
    split at h
    · simp only [List.mem_cons] at h
      rcases h with rfl | h
      · simp
      · exact ih h
    · cases hs : splitOn sep s with
      | nil => exact absurd hs (splitOn_ne_nil _ _)
      | cons q qs =>
        rw [hs] at h ih
        simp only [List.mem_cons] at h
        rcases h with rfl | h
        · have := ih (p := q) (by simp)
          simp only [List.mem_cons, not_or]
          exact ⟨fun h => by simp_all, this⟩
        · exact ih (by simp [h])

theorem splitOn_of_not_mem {sep : Nat} {p : Str} (h : sep ∉ p) : splitOn sep p = [p] := by
  induction p with
  | nil => rfl
  | cons c p ih =>
    simp only [List.mem_cons, not_or] at h
    simp only [splitOn]
    rw [if_neg (fun hh => h.1 hh.symm), ih h.2]

theorem splitOn_append_sep {sep : Nat} {p : Str} (h : sep ∉ p) (s : Str) :
    splitOn sep (p ++ sep :: s) = p :: splitOn sep s := by
  induction p with
  | nil => simp [splitOn]
  | cons c p ih =>
    simp only [List.mem_cons, not_or] at h
    simp only [List.cons_append, splitOn]
    rw [if_neg (fun hh => h.1 hh.symm), ih h.2]

/-- Joining separator-free parts then splitting gives the parts back. -/
theorem splitOn_joinWith {sep : Nat} {ps : List Str} (hne : ps ≠ []) (h : ∀ p ∈ ps, sep ∉ p) :
    splitOn sep (joinWith sep ps) = ps := by
  induction ps with
  | nil => exact absurd rfl hne
  | cons p ps ih =>
    cases ps with
    | nil => exact splitOn_of_not_mem (h p (by simp))
    | cons q ps =>
      simp only [joinWith]
      rw [splitOn_append_sep (h p (by simp)), ih (by simp) (fun x hx => h x (by simp [hx]))]

end Rescene
