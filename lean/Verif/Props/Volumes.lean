import Verif.Lemmas.Volumes
/-
C27, C28: names of RAR volumes.
-/
namespace Rescene.Props
open Spec

/-! ### helpers -/

theorem is_append {a b c d : Str} (h1 : Is a c) (h2 : Is b d) : Is (a ++ b) (c ++ d) := by
  unfold Is at *; simp [h1, h2]

theorem is_snoc {r : Str} {l : Str} {x : Nat} (h : Is r (l ++ [x])) : ∃ r' c, r = r' ++ [c] ∧ lowerA c = x := by
  rcases List.eq_nil_or_concat r with rfl | ⟨r', c, rfl⟩
  · simp [Is] at h
  · rw [List.concat_eq_append] at h ⊢
    refine ⟨r', c, rfl, ?_⟩
    simp only [Is, List.map_append, List.map_cons, List.map_nil] at h
    have := List.append_inj' h rfl
    simpa using this.2

/-- A name that does not end in r or newline is not a `.rar` name. -/
theorem not_rar_end {s : Str} {c : Nat} (hc : lowerA c ≠ 0x72) (hn : c ≠ 0x0A) (x r tail : Str)
    (hr : Is r (str "rar")) (ht : tail = [] ∨ tail = [0x0A]) : s ++ [c] ≠ x ++ r ++ tail := by
  intro h
  rcases ht with rfl | rfl
  · obtain ⟨r', c', rfl, hc'⟩ := is_snoc (l := str "ra") (x := 0x72) hr
    have h' : s ++ [c] = (x ++ r') ++ [c'] := by simpa using h
    have := (List.append_inj' h' rfl).2
    simp at this
    subst this
    exact hc hc'
  · have := (List.append_inj' h rfl).2
    simp at this
    exact hn this

theorem partRx_false_of_last {dig : Nat → Bool} {s : Str} {c : Nat} (hc : lowerA c ≠ 0x72) (hn : c ≠ 0x0A) :
    (partRx dig).test (s ++ [c]) = false := by
  cases h : (partRx dig).test (s ++ [c]) with
  | false => rfl
  | true =>
    obtain ⟨p, q, d, x, r, tail, h, _, _, _, _, hr, ht⟩ := (partRx_iff dig _).mp h
    exact absurd h (not_rar_end hc hn _ r tail hr ht)

theorem dotRar_false_of_last {s : Str} {c : Nat} (hc : lowerA c ≠ 0x72) (hn : c ≠ 0x0A) :
    dotRarRx.test (s ++ [c]) = false := by
  cases h : dotRarRx.test (s ++ [c]) with
  | false => rfl
  | true =>
    obtain ⟨p, r, tail, h, _, hr, ht⟩ := (dotRarRx_iff _).mp h
    exact absurd h (not_rar_end hc hn _ r tail hr ht)

theorem lower_digit {c : Nat} (h : 0x30 ≤ c ∧ c ≤ 0x39) : lowerA c ≠ 0x72 ∧ c ≠ 0x0A := by
  unfold lowerA
  rw [show 'A'.toNat = 0x41 from rfl, show 'Z'.toNat = 0x5A from rfl]
  split <;> omega

theorem digits_succ_snoc (w n : Nat) : ∃ c, digits (w + 1) n = digits w (n / 10) ++ [c] ∧ 0x30 ≤ c ∧ c ≤ 0x39 :=
  ⟨_, rfl, by rw [show '0'.toNat = 0x30 from rfl]; omega⟩

theorem digOk_digit {dig : Nat → Bool} (hd : DigOk dig) {c : Nat} (h : 0x30 ≤ c ∧ c ≤ 0x39) : dig c = true :=
  (hd c (by omega)).mpr h

theorem digOk_not {dig : Nat → Bool} (hd : DigOk dig) {c : Nat} (h : c < 128) (h' : c < 0x30 ∨ 0x39 < c) : dig c = false := by
  cases hc : dig c with
  | false => rfl
  | true =>
    have := (hd c h).mp hc
    rw [show '0'.toNat = 0x30 from rfl, show '9'.toNat = 0x39 from rfl] at this
    omega

/-! ### C27 -/

/-- C27: the first step of the old naming, whatever the case of the extension; for a base
name ending in `.part` and digits the old naming has to be asked for. -/
theorem next_after_rar (dig : Nat → Bool) (base r : Str) (isOld : Bool) (hb : 0x0A ∉ base)
    (hr : Is r (str ".rar")) (ho : isOld = true ∨ ¬ EndsInPart dig base) :
    nextArchive dig (base ++ r) isOld = .ok (base ++ str ".r00") := by
  have hl : r.length = 4 := is_length hr
  have hr' : ∃ t, r = 0x2E :: t ∧ Is t (str "rar") := by
    match r, hl, hr with
    | [a, b, c, d], _, hr =>
      simp [Is, str] at hr
      refine ⟨[b, c, d], ?_, by simp [Is, str, hr.2.1, hr.2.2]⟩
      have : a = 0x2E := by
        have := hr.1
        unfold lowerA at this
        rw [show 'A'.toNat = 0x41 from rfl, show 'Z'.toNat = 0x5A from rfl] at this
        split at this <;> omega
      rw [this]
  obtain ⟨t, rfl, ht⟩ := hr'
  unfold nextArchive
  rw [if_neg, if_pos]
  · have : (base ++ 0x2E :: t).length - 4 = base.length := by rw [List.length_append, hl]; omega
    rw [this]; simp
  · exact (dotRarRx_iff _).mpr ⟨base, t, [], by simp, hb, ht, Or.inl rfl⟩
  · rintro ⟨hp, hfalse⟩
    rcases ho with rfl | ho
    · simp at hfalse
    · obtain ⟨p, q, d, x, r', tail, he, hp, hq, hd, hx, hr', htl⟩ := (partRx_iff dig _).mp hp
      apply ho
      obtain ⟨t', c, rfl, hc⟩ := is_snoc (l := str "ra") (x := 0x72) ht
      have htail : tail = [] := by
        rcases htl with h | rfl
        · exact h
        · exfalso
          have h1 : (base ++ 0x2E :: t') ++ [c] = (p ++ [0x2E] ++ q ++ d ++ [x] ++ r') ++ [0x0A] := by simpa using he
          have := (List.append_inj' h1 rfl).2
          simp at this
          subst this
          revert hc; decide
      subst htail
      have h1 : base ++ (0x2E :: (t' ++ [c])) = (p ++ [0x2E] ++ q ++ d) ++ ([x] ++ r') := by simpa using he
      have h2 := (List.append_inj' h1 (by rw [is_length hr] ; simp [is_length hr']; rfl)).1
      refine ⟨p, [0x2E] ++ q, d, by simp [h2], ?_, hd⟩
      exact is_append (a := [0x2E]) (c := str ".") rfl hq

/-- C27: the old naming: after `base.rar` come `base.r00` ... `base.r99`, `base.s00` ... `base.z99`. -/
theorem next_old (dig : Nat → Bool) (hd : DigOk dig) (base : Str) (isOld : Bool) (hb : 0x0A ∉ base)
    (ho : isOld = true ∨ ¬ EndsInPart dig base) (k : Nat) (hk : k ≤ 900) :
    nextArchive dig (oldVol base k) isOld = .ok (oldVol base (k + 1)) := by
  cases k with
  | zero =>
    have := next_after_rar dig base (str ".rar") isOld hb rfl ho
    simp only [oldVol]
    rw [this]
    simp; rfl
  | succ k =>
    obtain ⟨c, hc, hc2⟩ := digits_succ_snoc 1 k
    have he : oldVol base (k + 1) = (base ++ str "." ++ ['r'.toNat + k / 100] ++ digits 1 (k / 10)) ++ [c] := by
      simp only [oldVol]; rw [hc]; simp
    have hlow := lower_digit hc2
    unfold nextArchive
    rw [if_neg, if_neg, if_neg]
    · simp only [oldVol]
      by_cases h : k % 100 + 1 < 100
      · have e : digits 2 k = digits 2 (k % 100) := by simp [digits]; omega
        have e2 : digits 2 (k + 1) = digits 2 (k % 100 + 1) := by simp [digits]; omega
        have e3 : (k + 1) / 100 = k / 100 := by omega
        rw [e, e2, e3]
        have := incRev_digits (w := 2) (n := k % 100) ((base ++ str "." ++ ['r'.toNat + k / 100]).reverse) (by omega)
        rw [incName_append this (by simp [str])]
        simp
      · have e3 : (k + 1) / 100 = k / 100 + 1 := by omega
        have h0 : (k + 1) % 10 ^ 2 = 0 := by omega
        have := incRev_overflow (w := 2) (n := k) ((base ++ str "." ++ ['r'.toNat + k / 100]).reverse) h0
        have e4 : incRev ((base ++ str "." ++ ['r'.toNat + k / 100]).reverse) =
            some (('r'.toNat + k / 100 + 1) :: (base ++ str ".").reverse) := by
          rw [List.reverse_append (as := base ++ str ".")]
          simp only [List.reverse_cons, List.reverse_nil, List.nil_append, List.cons_append, incRev]
          rw [if_neg (by rw [show 'r'.toNat = 0x72 from rfl]; omega)]
        rw [e4] at this
        have e5 : digits 2 (k + 1) = [0x30, 0x30] := by
          have h1 : (k + 1) % 10 = 0 := by omega
          have h2 : (k + 1) / 10 % 10 = 0 := by omega
          simp [digits, h1, h2]
        rw [incName_append this (by simp [str]), e3, e5]
        simp [List.replicate]
        omega
    · -- it is a RAR name
      rw [Bool.not_eq_false, isRar_iff]
      obtain ⟨c1, hc1, hc12⟩ := digits_succ_snoc 0 (k / 10)
      refine ⟨base, ['r'.toNat + k / 100, c1, c], [], ?_, hb, Or.inr (Or.inl ⟨_, c1, c, rfl, Or.inl ?_, digOk_digit hd hc12, digOk_digit hd hc2⟩), Or.inl rfl⟩
      · rw [he, hc1]
        simp [digits, str]
      · unfold lowerA
        rw [show 'A'.toNat = 0x41 from rfl, show 'Z'.toNat = 0x5A from rfl, show 'r'.toNat = 0x72 from rfl, show 'z'.toNat = 0x7A from rfl]
        rw [if_neg (by omega)]
        omega
    · rw [he, dotRar_false_of_last hlow.1 hlow.2]; simp
    · rw [he, partRx_false_of_last hlow.1 hlow.2]; simp

/-- C27: no two of these names are equal, and they all keep the base name. -/
theorem old_names_distinct (base : Str) (i j : Nat) (h : oldVol base i = oldVol base j) : i = j := by
  have key : ∀ k, oldVol base k = base ++ (0x2E :: match k with
      | 0 => str "rar"
      | k + 1 => ('r'.toNat + k / 100) :: digits 2 k) := by
    intro k; cases k <;> simp [oldVol, str]
  rw [key, key] at h
  have h := List.append_cancel_left h
  simp only [List.cons.injEq, true_and] at h
  have hr : str "rar" = ['r'.toNat, 'a'.toNat, 'r'.toNat] := rfl
  match i, j, h with
  | 0, 0, _ => rfl
  | 0, j + 1, h =>
    exfalso
    rw [hr] at h
    have : ('a'.toNat) ∈ digits 2 j := by
      have := congrArg List.tail h
      simp only [List.tail_cons] at this
      rw [← this]; simp
    have := digits_mem this
    revert this; decide
  | i + 1, 0, h =>
    exfalso
    rw [hr] at h
    have : ('a'.toNat) ∈ digits 2 i := by
      have := congrArg List.tail h
      simp only [List.tail_cons] at this
      rw [this]; simp
    have := digits_mem this
    revert this; decide
  | i + 1, j + 1, h =>
    simp only [List.cons.injEq] at h
    have e : ∀ k, digits 2 k = digits 2 (k % 100) := by intro k; simp [digits]; omega
    rw [e i, e j] at h
    have := digits_inj (w := 2) (by omega) (by omega) h.2
    omega

/-- C27: the new naming: the number is increased and keeps its width. -/
theorem next_new (dig : Nat → Bool) (hd : DigOk dig) (base : Str) (hb : 0x0A ∉ base) (w n : Nat) (h : n + 1 < 10 ^ w) :
    nextArchive dig (newVol base w n) false = .ok (newVol base w (n + 1)) := by
  unfold nextArchive
  rw [if_pos]
  · have hl : (newVol base w n).length - 4 = (base ++ str ".part" ++ digits w n).length := by
      simp [newVol, str]; omega
    rw [hl]
    have h1 : (newVol base w n).take (base ++ str ".part" ++ digits w n).length = base ++ str ".part" ++ digits w n := by
      simp only [newVol]; rw [List.take_left]
    have h2 : (newVol base w n).drop (base ++ str ".part" ++ digits w n).length = str ".rar" := by
      simp only [newVol]; rw [List.drop_left]
    rw [h1, h2, incName_append (incRev_digits _ h) (by simp [str])]
    simp [newVol]
  · refine ⟨(partRx_iff dig _).mpr ⟨base, str "part", digits w n, 0x2E, str "rar", [], by simp [newVol, str], hb, rfl, ?_, by decide, rfl, Or.inl rfl⟩, rfl⟩
    intro c hc
    exact digOk_digit hd (digits_mem hc)

/-- C27: the new naming, at the last number of its width: the result is not a volume name
(the documentation says that this must never occur). -/
theorem next_new_overflow (dig : Nat → Bool) (hd : DigOk dig) (base : Str) (hb : 0x0A ∉ base) (w : Nat) :
    nextArchive dig (newVol base w (10 ^ w - 1)) false =
      .ok (base ++ str ".paru" ++ List.replicate w '0'.toNat ++ str ".rar") := by
  have hp : 0 < 10 ^ w := Nat.pow_pos (by omega)
  generalize hn : 10 ^ w - 1 = n
  have h0 : (n + 1) % 10 ^ w = 0 := by
    have : n + 1 = 10 ^ w := by omega
    rw [this, Nat.mod_self]
  unfold nextArchive
  rw [if_pos]
  · have hl : (newVol base w n).length - 4 = (base ++ str ".part" ++ digits w n).length := by
      simp [newVol, str]; omega
    rw [hl]
    have h1 : (newVol base w n).take (base ++ str ".part" ++ digits w n).length = base ++ str ".part" ++ digits w n := by
      simp only [newVol]; rw [List.take_left]
    have h2 : (newVol base w n).drop (base ++ str ".part" ++ digits w n).length = str ".rar" := by
      simp only [newVol]; rw [List.drop_left]
    have h3 := incRev_overflow (w := w) (n := n) ((base ++ str ".part").reverse) h0
    have h4 : incRev ((base ++ str ".part").reverse) = some (0x75 :: (base ++ str ".par").reverse) := by
      simp [str, incRev]
    rw [h4] at h3
    rw [h1, h2, incName_append h3 (by simp [str])]
    simp [str]
  · refine ⟨(partRx_iff dig _).mpr ⟨base, str "part", digits w n, 0x2E, str "rar", [], by simp [newVol, str], hb, rfl, ?_, by decide, rfl, Or.inl rfl⟩, rfl⟩
    intro c hc
    exact digOk_digit hd (digits_mem hc)

/-- C27: numbered volumes. -/
theorem next_num (dig : Nat → Bool) (hd : DigOk dig) (base : Str) (isOld : Bool) (hb : 0x0A ∉ base) (n : Nat) (h : n + 1 < 1000) :
    nextArchive dig (numVol base n) isOld = .ok (numVol base (n + 1)) := by
  obtain ⟨c, hc, hc2⟩ := digits_succ_snoc 2 n
  have he : numVol base n = (base ++ str "." ++ digits 2 (n / 10)) ++ [c] := by
    simp only [numVol]; rw [hc]; simp
  have hlow := lower_digit hc2
  unfold nextArchive
  rw [if_neg, if_neg, if_neg]
  · simp only [numVol]
    rw [incName_append (incRev_digits _ (by omega)) (by simp [str])]
    simp
  · rw [Bool.not_eq_false, isRar_iff]
    obtain ⟨c1, hc1, hc12⟩ := digits_succ_snoc 1 (n / 10)
    obtain ⟨c0, hc0, hc02⟩ := digits_succ_snoc 0 (n / 10 / 10)
    refine ⟨base, [c0, c1, c], [], ?_, hb, Or.inr (Or.inr ⟨c0, c1, c, rfl, digOk_digit hd hc02, digOk_digit hd hc12, digOk_digit hd hc2⟩), Or.inl rfl⟩
    rw [he, hc1, hc0]
    simp [digits, str]
  · rw [he, dotRar_false_of_last hlow.1 hlow.2]; simp
  · rw [he, partRx_false_of_last hlow.1 hlow.2]; simp

/-- C27: the new and the numbered names are distinct, too. -/
theorem new_names_distinct (base : Str) (w m n : Nat) (hm : m < 10 ^ w) (hn : n < 10 ^ w)
    (h : newVol base w m = newVol base w n) : m = n := by
  simp only [newVol] at h
  have h1 := List.append_cancel_right h
  exact digits_inj hm hn (List.append_cancel_left h1)

/-- C27: only RAR names are accepted: with three characters after the last dot. -/
theorem next_accepts_iff (dig : Nat → Bool) (s : Str) (isOld : Bool) (hs : 0x0A ∉ s) :
    (∃ t, nextArchive dig s isOld = .ok t) ↔ (isRar dig s = true ∨ ((partRx dig).test s = true ∧ isOld = false)) := by
  have hdr : dotRarRx.test s = true → isRar dig s = true := by
    intro h
    obtain ⟨p, r, tail, rfl, hp, hr, ht⟩ := (dotRarRx_iff s).mp h
    exact (isRar_iff dig _).mpr ⟨p, r, tail, rfl, hp, Or.inl hr, ht⟩
  have hinc : ∀ x : Str, x ≠ [] → ∃ t, incName x = .ok t := by
    intro x hx
    unfold incName
    split
    · exact absurd rfl hx
    · split <;> exact ⟨_, rfl⟩
  unfold nextArchive
  constructor
  · rintro ⟨t, h⟩
    split at h
    · rename_i h'; exact Or.inr h'
    · split at h
      · rename_i h'; exact Or.inl (hdr h')
      · split at h
        · simp at h
        · rename_i h'; left; simpa using h'
  · intro h
    split
    · rename_i hp
      obtain ⟨p, q, d, x, r, tail, he, _, hq, _, _, hr, _⟩ := (partRx_iff dig s).mp hp.1
      have hlen : 4 < s.length := by
        rw [he]
        have := is_length hr
        have := is_length hq
        simp [*, str]; omega
      obtain ⟨t, ht⟩ := hinc (s.take (s.length - 4)) (by
        intro h'
        have := congrArg List.length h'
        simp at this
        omega)
      rw [ht, ok_bind]
      exact ⟨_, rfl⟩
    · rename_i hp
      split
      · exact ⟨_, rfl⟩
      · rcases h with h | h
        · rw [if_neg (by simp [h])]
          apply hinc
          rintro rfl
          revert h
          rw [isRar_iff]
          rintro ⟨b, e, t, h, _⟩
          simp at h
        · exact absurd h hp

/-- The table of digits restricted to ASCII, for examples. -/
def asciiDig (c : Nat) : Bool := decide (0x30 ≤ c ∧ c ≤ 0x39)
theorem asciiDig_ok : DigOk asciiDig := by intro c _; simp [asciiDig]
theorem lowerStr_ok : LowerOk (·.map lowerA) := by intro s t _; exact ⟨s.map lowerA, by simp⟩

example : oldVol (str "a") 101 = str "a.s00" := by decide
example : newVol (str "a") 2 9 = str "a.part09.rar" := by decide
example : nextArchive asciiDig (str "a.r99") false = .ok (str "a.s00") :=
  next_old asciiDig asciiDig_ok (str "a") false (by decide) (Or.inr (by
    rintro ⟨p, q, d, h, hq, _⟩
    have := congrArg List.length h
    have := is_length hq
    simp [str] at *; omega)) 100 (by decide)
example : nextArchive asciiDig (str "a.part09.rar") false = .ok (str "a.part10.rar") :=
  next_new asciiDig asciiDig_ok (str "a") (by decide) 2 9 (by decide)
example : nextArchive asciiDig (str "a.part9.rar") false = .ok (str "a.paru0.rar") :=
  next_new_overflow asciiDig asciiDig_ok (str "a") (by decide) 1

end Rescene.Props
