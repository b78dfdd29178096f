import Verif.Spec.Inputs
import Verif.Props.Sfv
import Verif.Props.FirstRars
import Verif.Lemmas.NextVolume
/-
Lemmas for the inputs of `create_srr`.
-/
namespace Rescene
open Spec Props

/-! ### Volumes that follow a volume -/

theorem volumesFrom_run {dig : Nat → Bool} {fs : FS} {isOld : Bool} {vol : Nat → Path} {n : Nat} :
    ∀ {k fuel : Nat}, (∀ i, i < n → nextArchive dig (vol (k + i)) isOld = .ok (vol (k + i + 1))) → (∀ i, i < n → (fs (vol (k + i))).isSome) →
      fs (vol (k + n)) = none → n < fuel →
      volumesFrom dig fs isOld fuel (vol k) = .ok ((List.range n).map fun i => vol (k + i)) := by
  induction n with
  | zero =>
    intro k fuel _ _ hnone hf
    obtain ⟨f, rfl⟩ : ∃ f, fuel = f + 1 := ⟨fuel - 1, by omega⟩
    rw [volumesFrom, if_neg (by rw [Nat.add_zero] at hnone; rw [hnone]; simp)]
    rfl
  | succ n ih =>
    intro k fuel hnext hex hnone hf
    obtain ⟨f, rfl⟩ : ∃ f, fuel = f + 1 := ⟨fuel - 1, by omega⟩
    have h0 := hnext 0 (by omega)
    rw [Nat.add_zero] at h0
    rw [volumesFrom, if_pos (by simpa using hex 0 (by omega)), h0, ok_bind]
    rw [ih (k := k + 1) (fuel := f) (fun i hi => by have := hnext (i + 1) (by omega); rw [show k + 1 + i = k + (i + 1) by omega]; exact this)
      (fun i hi => by rw [show k + 1 + i = k + (i + 1) by omega]; exact hex (i + 1) (by omega))
      (by rw [show k + 1 + n = k + (n + 1) by omega]; exact hnone) (by omega), ok_bind, List.range_succ_eq_map]
    simp only [pure_eq_ok, List.map_cons, List.map_map, Nat.add_zero]
    congr 2
    apply List.map_congr_left
    intro i _
    simp only [Function.comp]
    congr 1
    omega

theorem firstLoop_single (x : Str) : firstLoop 1 0 [x] = [x] := by
  simp only [firstLoop, List.getElem?_cons_zero]
  split
  · rename_i h
    obtain ⟨b, rfl⟩ := endsWith_iff.mp h
    rw [List.erase_of_not_mem]
    rw [List.mem_singleton]
    intro he
    have h1 : (b ++ str ".000") = (b ++ str ".00") ++ [0x30] := by simp [str]
    rw [h1] at he
    rw [List.length_append, List.length_singleton, Nat.add_sub_cancel, List.take_left] at he
    have := (List.append_inj' he rfl).2
    revert this; decide
  · rfl

/-- A single name is accepted when it looks like a first volume or ends in `.rar`. -/
theorem firstRars_single (dig : Nat → Bool) (lower : Str → Str) (x : Str) :
    firstRars dig lower [x] = if isFirst dig x = true ∨ endsWith (lower x) (str ".rar") = true then [x] else [] := by
  unfold firstRars
  by_cases h : isFirst dig x = true
  · simp only [List.filter_cons, h, List.filter_nil, if_true, List.length_singleton, firstLoop_single]
    simp
  · have h0 : [x].filter (isFirst dig) = [] := by simp [h]
    rw [h0]
    dsimp only
    rw [show firstLoop ([] : List Str).length 0 [] = [] from rfl]
    by_cases h2 : endsWith (lower x) (str ".rar") = true
    · have h1 : ([x].filter fun s => endsWith (lower s) (str ".rar")) = [x] := by simp [h2]
      simp only [h1, if_true, h2, or_true]
      by_cases h3 : [x].contains (x.take (x.length - 3) ++ str "r00") = true
      · rw [show ([x].filter fun s => [x].contains (s.take (s.length - 3) ++ str "r00")) = [x] by
          simp only [List.filter_cons, h3, if_true, List.filter_nil]]
        simp
      · rw [show ([x].filter fun s => [x].contains (s.take (s.length - 3) ++ str "r00")) = [] by
          simp only [List.filter_cons, h3, List.filter_nil]
          simp]
        simp
    · have h1 : ([x].filter fun s => endsWith (lower s) (str ".rar")) = [] := by simp [h2]
      rw [h1]
      simp [h, h2]

/-! ### Sorted lists -/

theorem increasing_eq {l l' : List Nat} (h : l.Pairwise (· < ·)) (h' : l'.Pairwise (· < ·)) (hm : ∀ x, x ∈ l ↔ x ∈ l') : l = l' := by
  induction l generalizing l' with
  | nil =>
    cases l' with
    | nil => rfl
    | cons b l' => exact absurd ((hm b).2 (by simp)) (by simp)
  | cons a l ih =>
    cases l' with
    | nil => exact absurd ((hm a).1 (by simp)) (by simp)
    | cons b l' =>
      rw [List.pairwise_cons] at h h'
      have hab : a = b := by
        rcases List.mem_cons.1 ((hm a).1 (by simp)) with e | e
        · exact e
        · rcases List.mem_cons.1 ((hm b).2 (by simp)) with e' | e'
          · exact e'.symm
          · have := h.1 b e'
            have := h'.1 a e
            omega
      subst hab
      rw [ih h.2 h'.2]
      intro x
      have := hm x
      simp only [List.mem_cons] at this
      constructor
      · intro hx
        rcases this.1 (Or.inr hx) with rfl | e
        · exact absurd (h.1 x hx) (by omega)
        · exact e
      · intro hx
        rcases this.2 (Or.inr hx) with rfl | e
        · exact absurd (h'.1 x hx) (by omega)
        · exact e

/-- The names are those of volumes. -/
theorem names_indices {l : List SfvEntry} {vol : Nat → Str} {n : Nat} (h : ∀ e ∈ l, ∃ i, i < n ∧ e.fileName = vol i) :
    ∃ is : List Nat, l.map (·.fileName) = is.map vol ∧ (∀ i ∈ is, i < n) ∧ is.length = l.length := by
  induction l with
  | nil => exact ⟨[], rfl, by simp, rfl⟩
  | cons e l ih =>
    obtain ⟨i, hi, he⟩ := h e (by simp)
    obtain ⟨is, h1, h2, h3⟩ := ih (fun e he => h e (List.mem_cons_of_mem _ he))
    refine ⟨i :: is, by simp [he, h1], ?_, by simp [h3]⟩
    intro j hj
    rcases List.mem_cons.1 hj with rfl | hj
    · exact hi
    · exact h2 j hj

/-! ### The SFV order -/

theorem digNoRar {dig : Nat → Bool} (hd : DigOk dig) : DigNoRar dig := by
  unfold DigNoRar
  rw [Bool.eq_false_iff]
  intro h
  have := (hd _ (by decide)).mp h
  revert this; decide

theorem sfvLt_name {lower : Str → Str} {dig : Nat → Bool} {a b a' b' : SfvEntry} (h : a.fileName = a'.fileName) (h' : b.fileName = b'.fileName) :
    sfvLt lower dig a b = sfvLt lower dig a' b' := by
  unfold sfvLt
  rw [h, h']

theorem sfv_weak {lower : Str → Str} {dig : Nat → Bool} (hd : DigOk dig) {l : List SfvEntry} (hl : NothingBetween lower dig l) :
    WeakOrderOn (sfvLt lower dig) l := by
  have ht := sfv_lt_trans_partial lower dig (digNoRar hd) l hl
  refine ⟨fun a _ => sfv_lt_irrefl lower dig (digNoRar hd) a, fun a ha b hb c hc => ht a b c ha hb hc, ?_⟩
  intro a ha b hb c hc hac
  by_cases h : sfvLt lower dig a b = true
  · exact Or.inl h
  · right
    by_cases he : a.fileName = b.fileName
    · rw [← sfvLt_name he rfl]; exact hac
    · have hba : sfvLt lower dig b a = true :=
        (sfv_lt_total lower dig (digNoRar hd) b a (fun e => he e.symm)).2 (by simpa using h)
      exact ht b a c hb ha hc hba hac

/-- Without contradicting lines, duplicates are adjacent once sorted, so the result is strictly sorted. -/
theorem dupLoop_strict {lower : Str → Str} {dig : Nat → Bool} (hd : DigOk dig) {all : List SfvEntry} (hw : WeakOrderOn (sfvLt lower dig) all)
    (hdup : ∀ e ∈ all, ∀ e' ∈ all, e.fileName = e'.fileName → lower e.crc = lower e'.crc) {l : List SfvEntry} :
    ∀ {p : Option SfvEntry}, (∀ e ∈ l, e ∈ all) → (∀ x, p = some x → x ∈ all) → (l.Pairwise fun a b => sfvLt lower dig b a = false) →
      (∀ x, p = some x → ∀ e ∈ l, sfvLt lower dig e x = false) →
      ((sfvDupLoop lower p l).Pairwise fun a b => sfvLt lower dig a b = true) ∧
      ∀ x, p = some x → ∀ r ∈ sfvDupLoop lower p l, sfvLt lower dig x r = true := by
  induction l with
  | nil => intro p _ _ _ _; simp [sfvDupLoop]
  | cons e l ih =>
    intro p hl hp hs hpe
    have he := hl e (by simp)
    rw [List.pairwise_cons] at hs
    have hrest := ih (p := some e) (fun x hx => hl x (List.mem_cons_of_mem _ hx)) (fun x hx => by cases hx; exact he) hs.2
      (fun x hx y hy => by cases hx; exact hs.1 y hy)
    -- strictly after the previous one
    have key : ∀ x, p = some x → x.fileName = e.fileName ∨ sfvLt lower dig x e = true := by
      intro x hx
      by_cases hn : x.fileName = e.fileName
      · exact Or.inl hn
      · exact Or.inr ((sfv_lt_total lower dig (digNoRar hd) x e hn).2 (hpe x hx e (by simp)))
    have later : ∀ x, p = some x → ∀ r ∈ sfvDupLoop lower (some e) l, sfvLt lower dig x r = true := by
      intro x hx r hr
      have h1 := hrest.2 e rfl r hr
      rcases key x hx with h | h
      · rw [sfvLt_name h rfl]; exact h1
      · exact hw.trans x (hp x hx) e he r (hl r (List.mem_cons_of_mem _ ((dupLoop_sub lower l _).subset hr))) h h1
    rw [sfvDupLoop]
    split
    · rename_i hk
      refine ⟨List.pairwise_cons.2 ⟨hrest.2 e rfl, hrest.1⟩, fun x hx r hr => ?_⟩
      rcases List.mem_cons.1 hr with rfl | hr
      · rcases key x hx with h | h
        · exfalso
          subst hx
          simp only [sfvKeep, sfvEq, Bool.not_eq_true', Bool.and_eq_false_iff, beq_eq_false_iff_ne, ne_eq] at hk
          rcases hk with hk | hk
          · exact hk (by rw [h])
          · exact hk (hdup _ he x (hp x rfl) h.symm)
        · exact h
      · exact later x hx r hr
    · exact ⟨hrest.1, later⟩

end Rescene
