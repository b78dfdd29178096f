import Verif.Model.Regex
namespace Rescene

theorem mem_manyEnds {p : Nat → Bool} (r : Str) : ∀ {b : Str} {z : Zip},
    z ∈ manyEnds p b r ↔ ∃ u v, r = u ++ v ∧ (∀ c ∈ u, p c = true) ∧ z = (u.reverse ++ b, v) := by
  induction r with
  | nil =>
    intro b z
    simp only [manyEnds, List.mem_singleton]
    constructor
    · rintro rfl; exact ⟨[], [], rfl, by simp, rfl⟩
    · rintro ⟨u, v, h, _, rfl⟩
      obtain ⟨rfl, rfl⟩ := List.append_eq_nil_iff.mp h.symm
      rfl
  | cons c r ih =>
    intro b z
    simp only [manyEnds, List.mem_cons]
    constructor
    · rintro (rfl | h)
      · exact ⟨[], c :: r, rfl, by simp, rfl⟩
      · split at h
        · rename_i hc
          obtain ⟨u, v, rfl, hu, rfl⟩ := ih.mp h
          refine ⟨c :: u, v, rfl, ?_, by simp⟩
          intro x hx
          rcases List.mem_cons.mp hx with rfl | hx
          · exact hc
          · exact hu x hx
        · simp at h
    · rintro ⟨u, v, h, hu, rfl⟩
      cases u with
      | nil => left; simp at h; simp [h]
      | cons x u =>
        right
        simp only [List.cons_append, List.cons.injEq] at h
        obtain ⟨rfl, rfl⟩ := h
        rw [if_pos (hu c (by simp))]
        exact ih.mpr ⟨u, v, rfl, fun x hx => hu x (by simp [hx]), by simp⟩

theorem mem_cls {p : Nat → Bool} {b r : Str} {z : Zip} :
    z ∈ (Rx.cls p).ends (b, r) ↔ ∃ c t, r = c :: t ∧ p c = true ∧ z = (c :: b, t) := by
  cases r with
  | nil => simp [Rx.ends]
  | cons c t =>
    simp only [Rx.ends]
    split
    · rename_i h
      simp only [List.mem_singleton]
      constructor
      · rintro rfl; exact ⟨c, t, rfl, h, rfl⟩
      · rintro ⟨c', t', h', _, rfl⟩; simp at h'; obtain ⟨rfl, rfl⟩ := h'; rfl
    · rename_i h
      constructor
      · intro h'; simp at h'
      · rintro ⟨c', t', h', hp, rfl⟩; simp at h'; obtain ⟨rfl, rfl⟩ := h'; exact absurd hp h

theorem mem_many {p : Nat → Bool} {b r : Str} {z : Zip} :
    z ∈ (Rx.many p).ends (b, r) ↔ ∃ u v, r = u ++ v ∧ (∀ c ∈ u, p c = true) ∧ z = (u.reverse ++ b, v) :=
  mem_manyEnds r

theorem mem_seq {x y : Rx} {z z' : Zip} : z' ∈ (Rx.seq x y).ends z ↔ ∃ w, w ∈ x.ends z ∧ z' ∈ y.ends w := by
  simp only [Rx.ends, List.mem_flatMap]

theorem mem_alt {x y : Rx} {z z' : Zip} : z' ∈ (Rx.alt x y).ends z ↔ z' ∈ x.ends z ∨ z' ∈ y.ends z := by
  simp only [Rx.ends, List.mem_append]

theorem mem_bos {z z' : Zip} : z' ∈ Rx.bos.ends z ↔ z.1 = [] ∧ z' = z := by
  simp only [Rx.ends]
  split <;> simp_all

theorem mem_eos {z z' : Zip} : z' ∈ Rx.eos.ends z ↔ (z.2 = [] ∨ z.2 = [0x0A]) ∧ z' = z := by
  simp only [Rx.ends]
  split
  · rename_i h; simp only [List.mem_singleton, h, true_and]
  · rename_i h; simp only [h, false_and, List.not_mem_nil]

theorem mem_notBehind {ps : List (Nat → Bool)} {z z' : Zip} :
    z' ∈ (Rx.notBehind ps).ends z ↔ behind ps.reverse z.1 = false ∧ z' = z := by
  simp only [Rx.ends]
  split
  · rename_i h; simp [h]
  · rename_i h; simp [h]

theorem test_iff {x : Rx} {s : Str} : x.test s = true ↔ ∃ z, z ∈ x.ends ([], s) := by
  unfold Rx.test
  cases h : x.ends ([], s) with
  | nil => simp
  | cons a l => simp

/-- `a` is the literal `b` up to the case of ASCII letters. -/
def CiEq : Str → Str → Prop
  | [], [] => True
  | c :: a, x :: b => rxCi x c = true ∧ CiEq a b
  | _, _ => False

theorem CiEq.length : ∀ {a b : Str}, CiEq a b → a.length = b.length
  | [], [], _ => rfl
  | _ :: _, _ :: _, h => by simp [h.2.length]
  | [], _ :: _, h => h.elim
  | _ :: _, [], h => h.elim

theorem mem_rxLit (s : Str) : ∀ {k : Rx} {b r : Str} {z : Zip},
    z ∈ (rxLit s k).ends (b, r) ↔ ∃ u v, r = u ++ v ∧ CiEq u s ∧ z ∈ k.ends (u.reverse ++ b, v) := by
  induction s with
  | nil =>
    intro k b r z
    simp only [rxLit]
    constructor
    · intro h; exact ⟨[], r, rfl, trivial, h⟩
    · rintro ⟨u, v, rfl, hu, h⟩
      cases u with
      | nil => exact h
      | cons => exact hu.elim
  | cons x s ih =>
    intro k b r z
    simp only [rxLit, mem_seq, mem_cls]
    constructor
    · rintro ⟨w, ⟨c, t, rfl, hc, rfl⟩, h⟩
      obtain ⟨u, v, rfl, hu, h⟩ := ih.mp h
      exact ⟨c :: u, v, rfl, ⟨hc, hu⟩, by simpa using h⟩
    · rintro ⟨u, v, rfl, hu, h⟩
      cases u with
      | nil => exact hu.elim
      | cons c u =>
        exact ⟨_, ⟨c, u ++ v, rfl, hu.1, rfl⟩, ih.mpr ⟨u, v, rfl, hu.2, by simpa using h⟩⟩

end Rescene
