import Verif.Lemmas.Regex
import Verif.Model.Volumes
import Verif.Spec.Volumes
namespace Rescene
open Spec

theorem rxCi_iff {x c : Nat} (hx : ¬ (0x41 ≤ x ∧ x ≤ 0x5A)) : rxCi x c = true ↔ lowerA c = x := by
  unfold rxCi lowerA
  simp only [Bool.or_eq_true, beq_iff_eq, Bool.and_eq_true, decide_eq_true_eq]
  rw [show 'A'.toNat = 0x41 from rfl, show 'Z'.toNat = 0x5A from rfl]
  split <;> omega

theorem ciEq_iff {u lit : Str} (h : ∀ x ∈ lit, ¬ (0x41 ≤ x ∧ x ≤ 0x5A)) : CiEq u lit ↔ Is u lit := by
  induction lit generalizing u with
  | nil => cases u <;> simp [CiEq, Is]
  | cons x lit ih =>
    cases u with
    | nil => simp [CiEq, Is]
    | cons c u =>
      have := ih (u := u) (fun y hy => h y (by simp [hy]))
      simp only [Is] at this
      simp only [CiEq, Is, List.map_cons, List.cons.injEq, rxCi_iff (h x (by simp)), this]

theorem is_length {s lit : Str} (h : Is s lit) : s.length = lit.length := by
  have := congrArg List.length h; simpa using this

theorem rxRzCi_iff {l : Nat} : rxRzCi l = true ↔
    (('r'.toNat ≤ lowerA l ∧ lowerA l ≤ 'z'.toNat) ∨ l = 0x17F) := by
  unfold rxRzCi lowerA
  rw [show 'A'.toNat = 0x41 from rfl, show 'Z'.toNat = 0x5A from rfl, show 'r'.toNat = 0x72 from rfl,
    show 'z'.toNat = 0x7A from rfl]
  simp only [Bool.or_eq_true, beq_iff_eq, Bool.and_eq_true, decide_eq_true_eq]
  split <;> omega

theorem rxDot_iff {u : Str} : (∀ c ∈ u, rxDot c = true) ↔ 0x0A ∉ u := by
  unfold rxDot
  constructor
  · intro h hm; have := h _ hm; simp at this
  · intro h c hc
    simp only [bne_iff_ne, ne_eq]
    rintro rfl; exact h hc

theorem isRar_iff (dig : Nat → Bool) (s : Str) : isRar dig s = true ↔
    ∃ base ext tail, s = base ++ [0x2E] ++ ext ++ tail ∧ 0x0A ∉ base ∧ RarExt dig ext ∧ (tail = [] ∨ tail = [0x0A]) := by
  unfold isRar isRarRx
  rw [test_iff]
  constructor
  · rintro ⟨z, hz⟩
    simp only [mem_seq, mem_many, mem_alt] at hz
    obtain ⟨_, ⟨u, v, rfl, hu, rfl⟩, _, hdot, _, hext, heos⟩ := hz
    rw [mem_cls] at hdot
    obtain ⟨c, t, rfl, hc, rfl⟩ := hdot
    simp only [beq_iff_eq] at hc
    subst hc
    rw [mem_eos] at heos
    rcases hext with ⟨_, h1, _, h2, h3⟩ | ⟨_, h1, _, h2, h3⟩ | ⟨_, h1, _, h2, h3⟩ <;>
    · rw [mem_cls] at h1
      obtain ⟨a, t, rfl, ha, rfl⟩ := h1
      rw [mem_cls] at h2
      obtain ⟨b, t, rfl, hb, rfl⟩ := h2
      rw [mem_cls] at h3
      obtain ⟨d, t, rfl, hd, rfl⟩ := h3
      refine ⟨u, [a, b, d], t, by simp, rxDot_iff.mp hu, ?_, heos.1⟩
      first
      | left
        rw [rxCi_iff (by omega)] at ha hb hd
        simp [Is, ha, hb, hd]; rfl
      | right; left; exact ⟨a, b, d, rfl, rxRzCi_iff.mp ha, hb, hd⟩
      | right; right; exact ⟨a, b, d, rfl, ha, hb, hd⟩
  · rintro ⟨base, ext, tail, rfl, hb, hext, htail⟩
    have hext3 : ∃ a b c, ext = [a, b, c] ∧
        ((rxCi 0x72 a = true ∧ rxCi 0x61 b = true ∧ rxCi 0x72 c = true) ∨ (rxRzCi a = true ∧ dig b = true ∧ dig c = true) ∨
         (dig a = true ∧ dig b = true ∧ dig c = true)) := by
      rcases hext with h | ⟨l, a, b, rfl, hl, ha, hb⟩ | ⟨a, b, c, rfl, h⟩
      · have hl := is_length h
        match ext, hl, h with
        | [a, b, c], _, h =>
          refine ⟨a, b, c, rfl, Or.inl ?_⟩
          simp [Is, str] at h
          rw [rxCi_iff (by omega), rxCi_iff (by omega), rxCi_iff (by omega)]
          exact h
      · exact ⟨l, a, b, rfl, Or.inr (Or.inl ⟨rxRzCi_iff.mpr hl, ha, hb⟩)⟩
      · exact ⟨a, b, c, rfl, Or.inr (Or.inr h)⟩
    obtain ⟨a, b, c, rfl, h⟩ := hext3
    refine ⟨(c :: b :: a :: 0x2E :: (base.reverse ++ []), tail), ?_⟩
    simp only [mem_seq, mem_many, mem_alt]
    refine ⟨_, ⟨base, [0x2E] ++ [a, b, c] ++ tail, by simp, rxDot_iff.mpr hb, rfl⟩, _, mem_cls.mpr ⟨0x2E, [a, b, c] ++ tail, rfl, rfl, rfl⟩,
      (c :: b :: a :: 0x2E :: (base.reverse ++ []), tail), ?_, mem_eos.mpr ⟨htail, rfl⟩⟩
    rcases h with ⟨h1, h2, h3⟩ | ⟨h1, h2, h3⟩ | ⟨h1, h2, h3⟩
    · left; exact ⟨_, mem_cls.mpr ⟨a, _, rfl, h1, rfl⟩, _, mem_cls.mpr ⟨b, _, rfl, h2, rfl⟩, mem_cls.mpr ⟨c, _, rfl, h3, rfl⟩⟩
    · right; left; exact ⟨_, mem_cls.mpr ⟨a, _, rfl, h1, rfl⟩, _, mem_cls.mpr ⟨b, _, rfl, h2, rfl⟩, mem_cls.mpr ⟨c, _, rfl, h3, rfl⟩⟩
    · right; right; exact ⟨_, mem_cls.mpr ⟨a, _, rfl, h1, rfl⟩, _, mem_cls.mpr ⟨b, _, rfl, h2, rfl⟩, mem_cls.mpr ⟨c, _, rfl, h3, rfl⟩⟩

theorem lit_part : ∀ x ∈ str "part", ¬ (0x41 ≤ x ∧ x ≤ 0x5A) := by decide
theorem lit_dpart : ∀ x ∈ str ".part", ¬ (0x41 ≤ x ∧ x ≤ 0x5A) := by decide
theorem lit_rar : ∀ x ∈ str "rar", ¬ (0x41 ≤ x ∧ x ≤ 0x5A) := by decide
theorem lit_drar : ∀ x ∈ str ".rar", ¬ (0x41 ≤ x ∧ x ≤ 0x5A) := by decide

theorem partRx_iff (dig : Nat → Bool) (s : Str) : (partRx dig).test s = true ↔
    ∃ p q d x r tail, s = p ++ [0x2E] ++ q ++ d ++ [x] ++ r ++ tail ∧ 0x0A ∉ p ∧ Is q (str "part") ∧
      (∀ c ∈ d, dig c = true) ∧ x ≠ 0x0A ∧ Is r (str "rar") ∧ (tail = [] ∨ tail = [0x0A]) := by
  unfold partRx
  rw [test_iff]
  simp only [mem_seq, mem_many]
  constructor
  · rintro ⟨z, _, ⟨u, v, rfl, hu, rfl⟩, _, hdot, hz⟩
    rw [mem_cls] at hdot
    obtain ⟨c, t, rfl, hc, rfl⟩ := hdot
    simp only [beq_iff_eq] at hc
    subst hc
    rw [mem_rxLit] at hz
    obtain ⟨q, v, rfl, hq, hz⟩ := hz
    simp only [mem_seq, mem_many] at hz
    obtain ⟨_, ⟨d, v, rfl, hd, rfl⟩, _, hx, hz⟩ := hz
    rw [mem_cls] at hx
    obtain ⟨x, t, rfl, hx, rfl⟩ := hx
    rw [mem_rxLit] at hz
    obtain ⟨r, tail, rfl, hr, hz⟩ := hz
    rw [mem_eos] at hz
    refine ⟨u, q, d, x, r, tail, by simp, rxDot_iff.mp hu, (ciEq_iff lit_part).mp hq, hd, ?_, (ciEq_iff lit_rar).mp hr, hz.1⟩
    simpa [rxDot] using hx
  · rintro ⟨p, q, d, x, r, tail, rfl, hp, hq, hd, hx, hr, ht⟩
    refine ⟨(r.reverse ++ (x :: (d.reverse ++ (q.reverse ++ (0x2E :: (p.reverse ++ []))))), tail), _,
      ⟨p, [0x2E] ++ q ++ d ++ [x] ++ r ++ tail, by simp, rxDot_iff.mpr hp, rfl⟩, _,
      mem_cls.mpr ⟨0x2E, q ++ d ++ [x] ++ r ++ tail, by simp, rfl, rfl⟩, ?_⟩
    · rw [mem_rxLit]
      refine ⟨q, d ++ [x] ++ r ++ tail, by simp, (ciEq_iff lit_part).mpr hq, ?_⟩
      simp only [mem_seq, mem_many]
      refine ⟨_, ⟨d, [x] ++ r ++ tail, by simp, hd, rfl⟩, _, mem_cls.mpr ⟨x, r ++ tail, by simp, ?_, rfl⟩, ?_⟩
      · simpa [rxDot] using hx
      · rw [mem_rxLit]
        exact ⟨r, tail, rfl, (ciEq_iff lit_rar).mpr hr, mem_eos.mpr ⟨ht, rfl⟩⟩

theorem dotRarRx_iff (s : Str) : dotRarRx.test s = true ↔
    ∃ p r tail, s = p ++ [0x2E] ++ r ++ tail ∧ 0x0A ∉ p ∧ Is r (str "rar") ∧ (tail = [] ∨ tail = [0x0A]) := by
  unfold dotRarRx
  rw [test_iff]
  simp only [mem_seq, mem_many]
  constructor
  · rintro ⟨z, _, ⟨u, v, rfl, hu, rfl⟩, _, hdot, hz⟩
    rw [mem_cls] at hdot
    obtain ⟨c, t, rfl, hc, rfl⟩ := hdot
    simp only [beq_iff_eq] at hc
    subst hc
    rw [mem_rxLit] at hz
    obtain ⟨r, tail, rfl, hr, hz⟩ := hz
    rw [mem_eos] at hz
    exact ⟨u, r, tail, by simp, rxDot_iff.mp hu, (ciEq_iff lit_rar).mp hr, hz.1⟩
  · rintro ⟨p, r, tail, rfl, hp, hr, ht⟩
    refine ⟨(r.reverse ++ (0x2E :: (p.reverse ++ [])), tail), _, ⟨p, [0x2E] ++ r ++ tail, by simp, rxDot_iff.mpr hp, rfl⟩, _,
      mem_cls.mpr ⟨0x2E, r ++ tail, by simp, rfl, rfl⟩, ?_⟩
    rw [mem_rxLit]
    exact ⟨r, tail, rfl, (ciEq_iff lit_rar).mpr hr, mem_eos.mpr ⟨ht, rfl⟩⟩

/-! digits -/

theorem digits_length (w n : Nat) : (digits w n).length = w := by
  induction w generalizing n with
  | zero => rfl
  | succ w ih => simp [digits, ih]

theorem digits_mem {w n c : Nat} (h : c ∈ digits w n) : 0x30 ≤ c ∧ c ≤ 0x39 := by
  induction w generalizing n with
  | zero => simp [digits] at h
  | succ w ih =>
    simp only [digits, List.mem_append, List.mem_singleton] at h
    rcases h with h | rfl
    · exact ih h
    · rw [show '0'.toNat = 0x30 from rfl]; omega

theorem digits_inj {w m n : Nat} (hm : m < 10 ^ w) (hn : n < 10 ^ w) (h : digits w m = digits w n) : m = n := by
  induction w generalizing m n with
  | zero => simp at hm hn; omega
  | succ w ih =>
    simp only [digits] at h
    have h2 := List.append_inj' h rfl
    rw [Nat.pow_succ] at hm hn
    have h3 := ih (m := m / 10) (n := n / 10) (by omega) (by omega) h2.1
    have h4 := h2.2
    simp at h4
    omega

theorem incRev_digits {w n : Nat} (rest : Str) (h : n + 1 < 10 ^ w) :
    incRev ((digits w n).reverse ++ rest) = some ((digits w (n + 1)).reverse ++ rest) := by
  induction w generalizing n with
  | zero => simp at h
  | succ w ih =>
    rw [Nat.pow_succ] at h
    simp only [digits, List.reverse_append, List.reverse_cons, List.reverse_nil, List.nil_append, List.cons_append, incRev]
    rw [show '0'.toNat = 0x30 from rfl]
    by_cases h9 : n % 10 = 9
    · rw [if_pos (by omega), ih (by omega)]
      have h1 : (n + 1) / 10 = n / 10 + 1 := by omega
      have h2 : (n + 1) % 10 = 0 := by omega
      simp [h1, h2]
    · rw [if_neg (by omega)]
      have h1 : (n + 1) / 10 = n / 10 := by omega
      have h2 : (n + 1) % 10 = n % 10 + 1 := by omega
      rw [h1, h2]; rfl

theorem incRev_overflow {w n : Nat} (rest : Str) (h : (n + 1) % 10 ^ w = 0) :
    incRev ((digits w n).reverse ++ rest) = (incRev rest).map (List.replicate w 0x30 ++ ·) := by
  induction w generalizing n with
  | zero => simp [digits]
  | succ w ih =>
    have h9 : n % 10 = 9 := by
      have : (n + 1) % 10 = 0 := by
        have : 10 ∣ n + 1 := Nat.dvd_trans ⟨10 ^ w, by rw [Nat.pow_succ]; omega⟩ (Nat.dvd_of_mod_eq_zero h)
        omega
      omega
    have h1 : (n / 10 + 1) % 10 ^ w = 0 := by
      obtain ⟨k, hk⟩ := Nat.dvd_of_mod_eq_zero h
      have : n / 10 + 1 = 10 ^ w * k := by
        rw [Nat.pow_succ, Nat.mul_comm (10 ^ w) 10, Nat.mul_assoc] at hk
        omega
      rw [this, Nat.mul_mod_right]
    simp only [digits, List.reverse_append, List.reverse_cons, List.reverse_nil, List.nil_append, List.cons_append, incRev]
    rw [show '0'.toNat = 0x30 from rfl, if_pos (by omega), ih h1]
    cases incRev rest <;> simp [List.replicate_succ]

theorem incName_append {a b : Str} {r : Str} (h : incRev (b.reverse ++ a.reverse) = some r) (hne : a ++ b ≠ []) :
    incName (a ++ b) = .ok r.reverse := by
  unfold incName
  split
  · rename_i h'; exact absurd h' hne
  · rw [List.reverse_append, h]

theorem incRev_length {s r : Str} (h : incRev s = some r) : r.length = s.length := by
  induction s generalizing r with
  | nil => simp [incRev] at h
  | cons c s ih =>
    simp only [incRev] at h
    split at h
    · rw [Option.map_eq_some_iff] at h
      obtain ⟨x, hx, rfl⟩ := h
      simp [ih hx]
    · simp at h; subst h; simp

theorem incRev_ne {s r : Str} (h : incRev s = some r) : r ≠ s := by
  cases s with
  | nil => simp [incRev] at h
  | cons c s =>
    simp only [incRev] at h
    split at h
    · rw [Option.map_eq_some_iff] at h
      obtain ⟨x, hx, rfl⟩ := h
      intro h'
      simp at h'
      omega
    · simp at h; subst h
      intro h'
      simp at h'

end Rescene
namespace Rescene
open Spec

theorem behind_one {p : Nat → Bool} {b : Str} :
    behind [p].reverse b = false ↔ ∀ c, b.reverse.getLast? = some c → p c = false := by
  cases b with
  | nil => simp [behind]
  | cons c b => simp [behind]

theorem behind_part {b : Str} :
    behind [rxCi 0x70, rxCi 0x61, rxCi 0x72, rxCi 0x74].reverse b = false ↔
      ∀ p' q, b.reverse = p' ++ q → ¬ Is q (str "part") := by
  have key : behind [rxCi 0x70, rxCi 0x61, rxCi 0x72, rxCi 0x74].reverse b = true ↔
      ∃ p' q, b.reverse = p' ++ q ∧ Is q (str "part") := by
    constructor
    · intro h
      match b, h with
      | [], h => simp [behind] at h
      | [_], h => simp [behind] at h
      | [_, _], h => simp [behind] at h
      | [_, _, _], h => simp [behind] at h
      | c4 :: c3 :: c2 :: c1 :: t, h =>
        simp only [List.reverse_cons, List.reverse_nil, List.nil_append, List.cons_append, behind, Bool.and_eq_true,
          Bool.and_true] at h
        rw [rxCi_iff (by omega), rxCi_iff (by omega), rxCi_iff (by omega), rxCi_iff (by omega)] at h
        refine ⟨t.reverse, [c1, c2, c3, c4], by simp, ?_⟩
        simp [Is, h.1, h.2.1, h.2.2.1, h.2.2.2]; rfl
    · rintro ⟨p', q, h, hq⟩
      have hl := is_length hq
      match q, hl, hq with
      | [c1, c2, c3, c4], _, hq =>
        have : b = c4 :: c3 :: c2 :: c1 :: p'.reverse := by
          have := congrArg List.reverse h
          simpa using this
        subst this
        simp [Is, str] at hq
        simp only [List.reverse_cons, List.reverse_nil, List.nil_append, List.cons_append, behind, Bool.and_eq_true,
          Bool.and_true]
        rw [rxCi_iff (by omega), rxCi_iff (by omega), rxCi_iff (by omega), rxCi_iff (by omega)]
        obtain ⟨h1, h2, h3, h4⟩ := hq
        exact ⟨h4, h3, h2, h1⟩
  constructor
  · intro h p' q h1 h2
    rw [key.mpr ⟨p', q, h1, h2⟩] at h
    simp at h
  · intro h
    cases hb : behind [rxCi 0x70, rxCi 0x61, rxCi 0x72, rxCi 0x74].reverse b with
    | false => rfl
    | true =>
      obtain ⟨p', q, h1, h2⟩ := key.mp hb
      exact absurd h2 (h p' q h1)

theorem firstRx_iff (dig : Nat → Bool) (s : Str) (hs : 0x0A ∉ s) :
    (firstRx dig).test s = true ↔ FirstName dig s := by
  unfold firstRx
  rw [test_iff]
  simp only [mem_seq, mem_many, mem_alt, mem_notBehind, mem_bos]
  constructor
  · rintro ⟨z, _, ⟨u, v, rfl, hu, rfl⟩, h⟩
    rcases h with (h | ⟨_, ⟨hb, rfl⟩, h⟩) | ⟨w, hw, w2, ⟨hb, hw2⟩, _, hd, _, hds, h⟩
    · rw [mem_rxLit] at h
      obtain ⟨q, v, rfl, hq, h⟩ := h
      simp only [mem_seq, mem_many] at h
      obtain ⟨_, ⟨zs, v, rfl, hz, rfl⟩, _, h1, h⟩ := h
      rw [mem_cls] at h1
      obtain ⟨c, t, rfl, hc, rfl⟩ := h1
      rw [mem_rxLit] at h
      obtain ⟨r, tail, rfl, hr, h⟩ := h
      rw [mem_eos] at h
      simp only [beq_iff_eq] at hc
      subst hc
      have ht : tail = [] := by
        rcases h.1 with h | h
        · exact h
        · exfalso; apply hs; simp at h; simp [h]
      subst ht
      refine ⟨u ++ q ++ zs ++ str "1", r, by simp [str], (ciEq_iff lit_drar).mp hr, Or.inr (Or.inr
        ⟨u, q, zs, rfl, (ciEq_iff lit_dpart).mp hq, ?_⟩)⟩
      intro c hc
      have := hz c hc
      simpa using this
    · rw [mem_rxLit] at h
      obtain ⟨r, tail, rfl, hr, h⟩ := h
      rw [mem_eos] at h
      have ht : tail = [] := by
        rcases h.1 with h | h
        · exact h
        · exfalso; apply hs; simp at h; simp [h]
      subst ht
      refine ⟨u, r, by simp, (ciEq_iff lit_drar).mp hr, Or.inl ?_⟩
      rw [behind_one] at hb
      simpa using hb
    · have hw' : ∃ p t, (∀ c, p.getLast? = some c → dig c = false) ∧ u ++ v = p ++ t ∧ w = (p.reverse, t) := by
        rcases hw with ⟨h0, rfl⟩ | hw
        · simp only [List.append_nil, List.reverse_eq_nil_iff] at h0
          subst h0
          exact ⟨[], v, by simp, rfl, rfl⟩
        · rw [mem_cls] at hw
          obtain ⟨c, t, rfl, hc, rfl⟩ := hw
          refine ⟨u ++ [c], t, ?_, by simp, by simp⟩
          intro c' hc'
          simp at hc'
          subst hc'
          simpa using hc
      obtain ⟨p, t, hp, he, rfl⟩ := hw'
      subst hw2
      rw [mem_cls] at hd
      obtain ⟨c, t, rfl, hc, rfl⟩ := hd
      rw [mem_many] at hds
      obtain ⟨ds, v', rfl, hds, rfl⟩ := hds
      rw [mem_rxLit] at h
      obtain ⟨r, tail, rfl, hr, h⟩ := h
      rw [mem_eos] at h
      rw [he] at hs ⊢
      have ht : tail = [] := by
        rcases h.1 with h | h
        · exact h
        · exfalso; apply hs; simp at h; simp [h]
      subst ht
      refine ⟨p ++ (c :: ds), r, by simp, (ciEq_iff lit_drar).mp hr, Or.inr (Or.inl ⟨p, c :: ds, rfl, by simp, ?_, hp, ?_⟩)⟩
      · intro x hx
        rcases List.mem_cons.mp hx with rfl | hx
        · exact hc
        · exact hds x hx
      · rw [behind_part] at hb
        simpa using hb
  · rintro ⟨b, r, rfl, hr, h⟩
    have hdot : ∀ p t : Str, 0x0A ∉ p ++ t → ∀ c ∈ p, rxDot c = true := by
      intro p t h
      exact rxDot_iff.mpr (fun h' => h (by simp [h']))
    have hrar : ∀ b' : Str, (r.reverse ++ b', ([] : Str)) ∈ (rxLit (str ".rar") Rx.eos).ends (b', r) := by
      intro b'
      rw [mem_rxLit]
      exact ⟨r, [], by simp, (ciEq_iff lit_drar).mpr hr, mem_eos.mpr ⟨Or.inl rfl, rfl⟩⟩
    rcases h with h | ⟨p, d, rfl, hne, hd, hp, hpart⟩ | ⟨p, q, z, rfl, hq, hz⟩
    · refine ⟨_, _, ⟨b, r, rfl, hdot _ _ hs, rfl⟩, Or.inl (Or.inr ⟨_, ⟨?_, rfl⟩, hrar _⟩)⟩
      rw [behind_one]
      simpa using h
    · obtain ⟨c, ds, rfl⟩ : ∃ c ds, d = c :: ds := by
        cases d with
        | nil => exact absurd rfl hne
        | cons c ds => exact ⟨c, ds, rfl⟩
      -- the character in front of the digits, if there is one
      have hb : ∀ b', b' = p.reverse → behind [rxCi 0x70, rxCi 0x61, rxCi 0x72, rxCi 0x74].reverse b' = false := by
        rintro b' rfl
        rw [behind_part]
        simpa using hpart
      have tail : ∀ b' : Str, ∃ z, ∃ w, w ∈ (Rx.cls dig).ends (b', (c :: ds) ++ r) ∧
          ∃ w', (∃ u v, w.2 = u ++ v ∧ (∀ c ∈ u, dig c = true) ∧ w' = (u.reverse ++ w.1, v)) ∧
            z ∈ (rxLit (str ".rar") Rx.eos).ends w' := by
        intro b'
        exact ⟨_, _, mem_cls.mpr ⟨c, ds ++ r, rfl, hd c (by simp), rfl⟩, _,
          ⟨ds, r, rfl, fun x hx => hd x (by simp [hx]), rfl⟩, hrar _⟩
      rcases List.eq_nil_or_concat p with rfl | ⟨p0, x, rfl⟩
      · obtain ⟨z, w, hw1, w', hw2, hz⟩ := tail []
        refine ⟨z, _, ⟨[], (c :: ds) ++ r, by simp, by simp, rfl⟩, Or.inr ⟨_, Or.inl ⟨rfl, rfl⟩, _, ⟨hb _ rfl, rfl⟩, w, hw1, w', ?_, hz⟩⟩
        rw [mem_many]; exact hw2
      · obtain ⟨z, w, hw1, w', hw2, hz⟩ := tail ((p0 ++ [x]).reverse)
        refine ⟨z, _, ⟨p0, [x] ++ (c :: ds) ++ r, by simp, hdot p0 ([x] ++ (c :: ds) ++ r) (by simpa using hs), rfl⟩,
          Or.inr ⟨((p0 ++ [x]).reverse, (c :: ds) ++ r), Or.inr (mem_cls.mpr ⟨x, (c :: ds) ++ r, by simp, ?_, by simp⟩), _,
            ⟨hb _ (by simp), rfl⟩, w, hw1, w', ?_, hz⟩⟩
        · have := hp x (by simp)
          simp [this]
        · rw [mem_many]; exact hw2
    · refine ⟨(r.reverse ++ (0x31 :: (z.reverse ++ (q.reverse ++ (p.reverse ++ [])))), []), _, ⟨p, q ++ z ++ str "1" ++ r, by simp, hdot p (q ++ z ++ str "1" ++ r) (by simpa using hs), rfl⟩,
        Or.inl (Or.inl ?_)⟩
      · rw [mem_rxLit]
        refine ⟨q, z ++ str "1" ++ r, by simp, (ciEq_iff lit_dpart).mpr hq, ?_⟩
        simp only [mem_seq, mem_many]
        refine ⟨_, ⟨z, str "1" ++ r, by simp, ?_, rfl⟩, _, mem_cls.mpr ⟨0x31, r, rfl, rfl, rfl⟩, hrar _⟩
        intro c hc
        have := hz c hc
        subst this; rfl

end Rescene
