import Verif.Model.Inputs
import Verif.Props.Sfv
/-
Following volume names never comes back to a name: `_handle_rar` ends.
-/
namespace Rescene
open Spec Props

theorem incRev_shape {s r : Str} (h : incRev s = some r) :
    ∃ k c x, s = List.replicate k 0x39 ++ c :: x ∧ c ≠ 0x39 ∧ r = List.replicate k 0x30 ++ (c + 1) :: x := by
  induction s generalizing r with
  | nil => simp [incRev] at h
  | cons a s ih =>
    rw [incRev] at h
    split at h
    · rename_i ha
      simp only [Option.map_eq_some_iff] at h
      obtain ⟨q, hq, rfl⟩ := h
      obtain ⟨k, c, x, rfl, hc, rfl⟩ := ih hq
      exact ⟨k + 1, c, x, by rw [ha, List.replicate_succ]; rfl, hc, by rw [List.replicate_succ]; rfl⟩
    · rename_i ha
      simp only [Option.some.injEq] at h
      exact ⟨0, a, s, rfl, ha, h.symm⟩

theorem incRev_none {s : Str} (h : incRev s = none) : ∀ c ∈ s, c = 0x39 := by
  induction s with
  | nil => simp
  | cons a s ih =>
    rw [incRev] at h
    split at h
    · rename_i ha
      intro c hc
      rcases List.mem_cons.1 hc with rfl | hc
      · exact ha
      · exact ih (by simpa using h) c hc
    · simp at h

theorem incName_shape {s t : Str} (h : incName s = .ok t) (hn : ∃ c ∈ s, c ≠ 0x39) :
    ∃ x c k, s = x ++ c :: List.replicate k 0x39 ∧ c ≠ 0x39 ∧ t = x ++ (c + 1) :: List.replicate k 0x30 := by
  unfold incName at h
  split at h
  · simp at h
  · split at h
    · rename_i r hr
      simp only [Except.ok.injEq] at h
      obtain ⟨k, c, x, hs, hc, rfl⟩ := incRev_shape hr
      refine ⟨x.reverse, c, k, ?_, hc, ?_⟩
      · have := congrArg List.reverse hs
        simpa using this
      · rw [← h]; simp
    · rename_i hr
      obtain ⟨c, hc, hne⟩ := hn
      exact absurd (incRev_none hr c (by simpa using hc)) hne

theorem inc_lt {x : Str} {c k : Nat} {a b : Str} : x ++ c :: (List.replicate k 0x39 ++ a) < x ++ (c + 1) :: (List.replicate k 0x30 ++ b) := by
  rw [lt_prefix, List.cons_lt_cons_iff]
  exact Or.inl (by omega)

/-- New style names, other `.rar` names, all other names. -/
def nameClass (dig : Nat → Bool) (isOld : Bool) (s : Str) : Nat :=
  if (partRx dig).test s = true ∧ isOld = false then 0 else if dotRarRx.test s = true then 1 else 2

/-- An order in which names are visited. -/
def NameBefore (dig : Nat → Bool) (isOld : Bool) (s t : Str) : Prop :=
  nameClass dig isOld s < nameClass dig isOld t ∨ (nameClass dig isOld s = nameClass dig isOld t ∧ s < t)

theorem NameBefore.irrefl {dig : Nat → Bool} {isOld : Bool} {s : Str} : ¬ NameBefore dig isOld s s := by
  rintro (h | ⟨_, h⟩)
  · omega
  · exact List.lt_irrefl _ h

theorem NameBefore.trans {dig : Nat → Bool} {isOld : Bool} {s t u : Str} (h1 : NameBefore dig isOld s t) (h2 : NameBefore dig isOld t u) :
    NameBefore dig isOld s u := by
  rcases h1 with h1 | ⟨h1, h1'⟩ <;> rcases h2 with h2 | ⟨h2, h2'⟩
  · exact Or.inl (by omega)
  · exact Or.inl (by omega)
  · exact Or.inl (by omega)
  · exact Or.inr ⟨by omega, List.lt_trans h1' h2'⟩

theorem class_two {dig : Nat → Bool} {isOld : Bool} {s : Str} {c : Nat} (hc : lowerA c ≠ 0x72) (hn : c ≠ 0x0A) :
    nameClass dig isOld (s ++ [c]) = 2 := by
  unfold nameClass
  rw [partRx_false_of_last hc hn, dotRar_false_of_last hc hn]
  simp

theorem zero_last : lowerA 0x30 ≠ 0x72 ∧ (0x30 : Nat) ≠ 0x0A := by decide

theorem lower_succ {c : Nat} (h : lowerA (c + 1) = 0x72) : c = 0x71 ∨ c = 0x51 := by
  unfold lowerA at h
  rw [show 'A'.toNat = 0x41 from rfl, show 'Z'.toNat = 0x5A from rfl] at h
  split at h <;> omega

/-- The next name comes later in the order. -/
theorem next_before {dig : Nat → Bool} (hd : DigOk dig) {isOld : Bool} {s t : Str} (h : nextArchive dig s isOld = .ok t) :
    NameBefore dig isOld s t := by
  unfold nextArchive at h
  split at h
  · -- new style
    rename_i hp
    simp only [bind_eq_ok, pure_eq_ok, Except.ok.injEq] at h
    obtain ⟨r, hr, rfl⟩ := h
    have hnine : ∃ c ∈ s.take (s.length - 4), c ≠ 0x39 := by
      obtain ⟨p, q, d, x, r, tail, he, _, hq, _, _, hr, ht⟩ := (partRx_iff dig s).mp hp.1
      refine ⟨0x2E, ?_, by decide⟩
      have hrl := is_length hr
      have htl : tail.length ≤ 1 := by rcases ht with rfl | rfl <;> simp
      have hql := is_length hq
      have hq4 : q.length = 4 := hql
      have hr3 : r.length = 3 := hrl
      have h4 : s.length - 4 = (p ++ [0x2E]).length + (s.length - 4 - (p ++ [0x2E]).length) := by
        rw [he]; simp only [List.length_append, List.length_singleton]; omega
      rw [h4, show s = (p ++ [0x2E]) ++ (q ++ d ++ [x] ++ r ++ tail) by rw [he]; simp, List.take_length_add_append]
      simp
    obtain ⟨x, c, k, hx, _, rfl⟩ := incName_shape hr hnine
    have hlt : s < x ++ (c + 1) :: List.replicate k 0x30 ++ s.drop (s.length - 4) := by
      have hs : s = x ++ c :: (List.replicate k 0x39 ++ s.drop (s.length - 4)) := by
        conv => lhs; rw [← List.take_append_drop (s.length - 4) s, hx]
        simp
      conv => lhs; rw [hs]
      rw [List.append_assoc, List.cons_append]
      exact inc_lt
    have hc0 : nameClass dig isOld s = 0 := by unfold nameClass; rw [if_pos hp]
    by_cases h0 : nameClass dig isOld (x ++ (c + 1) :: List.replicate k 0x30 ++ s.drop (s.length - 4)) = 0
    · exact Or.inr ⟨by rw [hc0, h0], hlt⟩
    · exact Or.inl (by omega)
  · rename_i hp
    split at h
    · rename_i hr
      simp only [Except.ok.injEq] at h
      subst h
      refine Or.inl ?_
      rw [show s.take (s.length - 4) ++ str ".r00" = (s.take (s.length - 4) ++ str ".r0") ++ [0x30] by simp [str],
        class_two zero_last.1 zero_last.2]
      unfold nameClass
      rw [if_neg hp, if_pos hr]
      omega
    · rename_i hnr
      split at h
      · simp at h
      · rename_i hrar
        have hrar : isRar dig s = true := by simpa using hrar
        obtain ⟨b, e, tail, he, _, hext, ht⟩ := (isRar_iff dig s).mp hrar
        obtain ⟨x, c, k, hs, _, rfl⟩ := incName_shape h ⟨0x2E, by rw [he]; simp, by decide⟩
        have hlt : s < x ++ (c + 1) :: List.replicate k 0x30 := by
          have := inc_lt (x := x) (c := c) (k := k) (a := []) (b := [])
          simp only [List.append_nil] at this
          conv => lhs; rw [hs]
          exact this
        have hcs : nameClass dig isOld s = 2 := by unfold nameClass; rw [if_neg hp, if_neg hnr]
        refine Or.inr ⟨?_, hlt⟩
        rw [hcs]
        symm
        cases k with
        | succ k =>
          rw [List.replicate_succ', ← List.cons_append, ← List.append_assoc]
          exact class_two zero_last.1 zero_last.2
        | zero =>
          simp only [List.replicate_zero] at hs ⊢
          -- the last character
          have hlast : c = 0x0A ∨ dig c = true := by
            rcases ht with rfl | rfl
            · right
              rw [List.append_nil] at he
              rcases hext with hr | ⟨l, a, d, rfl, _, _, hdig⟩ | ⟨a, d, f, rfl, _, _, hdig⟩
              · exact absurd ((dotRarRx_iff s).mpr ⟨b, e, [], by rw [he]; simp, by assumption, hr, Or.inl rfl⟩) hnr
              · have : x ++ [c] = (b ++ [0x2E] ++ [l, a]) ++ [d] := by rw [← hs, he]; simp
                have := (List.append_inj' this rfl).2
                simp only [List.cons.injEq, and_true] at this
                rw [this]; exact hdig
              · have : x ++ [c] = (b ++ [0x2E] ++ [a, d]) ++ [f] := by rw [← hs, he]; simp
                have := (List.append_inj' this rfl).2
                simp only [List.cons.injEq, and_true] at this
                rw [this]; exact hdig
            · left
              have : x ++ [c] = (b ++ [0x2E] ++ e) ++ [0x0A] := by rw [← hs, he]
              have := (List.append_inj' this rfl).2
              simpa using this
          apply class_two
          · intro hl
            rcases lower_succ hl with rfl | rfl <;> rcases hlast with h | h
            · omega
            · have := (hd 0x71 (by decide)).mp h
              revert this; decide
            · omega
            · have := (hd 0x51 (by decide)).mp h
              revert this; decide
          · intro h9
            have : c = 9 := by omega
            subst this
            rcases hlast with h | h
            · omega
            · have := (hd 9 (by decide)).mp h
              revert this; decide

theorem countP_lt {α : Type} {l : List α} {p q : α → Bool} (h : ∀ x ∈ l, p x = true → q x = true) {a : α} (ha : a ∈ l)
    (hp : p a = false) (hq : q a = true) : l.countP p < l.countP q := by
  induction l with
  | nil => simp at ha
  | cons b l ih =>
    have hle : l.countP p ≤ l.countP q := List.countP_mono_left (fun x hx => h x (List.mem_cons_of_mem _ hx))
    rcases List.mem_cons.1 ha with rfl | ha
    · rw [List.countP_cons_of_neg (by simp [hp]), List.countP_cons_of_pos hq]
      omega
    · have := ih (fun x hx => h x (List.mem_cons_of_mem _ hx)) ha
      by_cases hb : p b = true
      · rw [List.countP_cons_of_pos hb, List.countP_cons_of_pos (h b (by simp) hb)]
        omega
      · rw [List.countP_cons_of_neg hb]
        by_cases hb' : q b = true
        · rw [List.countP_cons_of_pos hb']; omega
        · rw [List.countP_cons_of_neg hb']; exact this

/-- The files that can still come. -/
noncomputable def toCome (dig : Nat → Bool) (isOld : Bool) (files : List Path) (p : Path) : Nat :=
  open Classical in files.countP fun q => decide (q = p ∨ NameBefore dig isOld p q)

theorem incName_never_fuel (s : Str) : incName s ≠ .error .fuel := by
  unfold incName
  split
  · simp
  · split <;> simp

theorem nextArchive_never_fuel {dig : Nat → Bool} {isOld : Bool} (s : Str) : nextArchive dig s isOld ≠ .error .fuel := by
  unfold nextArchive
  split
  · intro h
    cases hi : incName (s.take (s.length - 4)) with
    | ok r => rw [hi] at h; simp [pure_eq_ok] at h
    | error e =>
      rw [hi] at h
      simp only [error_bind, Except.error.injEq] at h
      exact incName_never_fuel _ (h ▸ hi)
  · split
    · simp
    · split
      · simp
      · exact incName_never_fuel s

theorem volumesFrom_ends {dig : Nat → Bool} (hd : DigOk dig) {fs : FS} {files : List Path} (hf : ∀ p, (fs p).isSome → p ∈ files)
    {isOld : Bool} {fuel : Nat} : ∀ {p : Path}, toCome dig isOld files p < fuel → volumesFrom dig fs isOld fuel p ≠ .error .fuel := by
  induction fuel with
  | zero => intro p h; omega
  | succ fuel ih =>
    intro p h
    rw [volumesFrom]
    split
    · rename_i hp
      cases hn : nextArchive dig p isOld with
      | error e =>
        rw [error_bind]
        intro he
        simp only [Except.error.injEq] at he
        exact nextArchive_never_fuel p (he ▸ hn)
      | ok q =>
        rw [ok_bind]
        have hb := next_before hd hn
        have hlt : toCome dig isOld files q < toCome dig isOld files p := by
          unfold toCome
          apply countP_lt (a := p)
          · intro x _ hx
            simp only [decide_eq_true_eq] at hx ⊢
            rcases hx with rfl | hx
            · exact Or.inr hb
            · exact Or.inr (hb.trans hx)
          · exact hf p hp
          · simp only [decide_eq_false_iff_not, not_or]
            refine ⟨?_, fun hx => NameBefore.irrefl (hb.trans hx)⟩
            rintro rfl
            exact NameBefore.irrefl hb
          · simp
        have := ih (p := q) (by omega)
        cases hr : volumesFrom dig fs isOld fuel q with
        | error e =>
          rw [error_bind]
          intro he
          simp only [Except.error.injEq] at he
          exact this (he ▸ hr)
        | ok r => rw [ok_bind]; simp [pure_eq_ok]
    · simp

end Rescene
