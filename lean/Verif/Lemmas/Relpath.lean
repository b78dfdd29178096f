import Verif.Model.Inputs
import Verif.Lemmas.Paths
/-
`abspath` and `relpath` in terms of the places that paths denote.
-/
namespace Rescene
open Spec

theorem normComps_abs {cs : List Str} : ∀ {acc : List Str}, [0x2E, 0x2E] ∉ acc → normComps true acc cs = walk acc.reverse cs := by
  induction cs with
  | nil => intro acc _; simp [normComps, walk]
  | cons c cs ih =>
    intro acc hacc
    unfold normComps walk
    by_cases h1 : c = [] ∨ c = [0x2E]
    · rw [if_pos h1, if_pos h1]; exact ih hacc
    · rw [if_neg h1, if_neg h1]
      by_cases h2 : c = [0x2E, 0x2E]
      · rw [if_pos h2]
        have hh : acc.head? ≠ some [0x2E, 0x2E] := fun h => hacc (List.mem_of_mem_head? (by rw [h]; simp))
        rw [if_neg (by simp [h2, hh]), ih (fun h => hacc (List.mem_of_mem_tail h))]
        congr 1
        simp
      · rw [if_neg h2, if_pos (Or.inl h2), ih (by simp [hacc]; exact fun h => h2 h.symm)]
        simp

theorem walk_plain_all {cs d : List Str} (hd : ∀ e ∈ d, PlainElem e) (hc : ∀ e ∈ cs, 0x2F ∉ e) : ∀ e ∈ walk d cs, PlainElem e := by
  induction cs generalizing d with
  | nil => exact hd
  | cons c cs ih =>
    have hc' : ∀ e ∈ cs, 0x2F ∉ e := fun e he => hc e (by simp [he])
    unfold walk
    split
    · exact ih hd hc'
    · rename_i h1
      simp only [not_or] at h1
      split
      · exact ih (fun e he => hd e (List.dropLast_sublist d |>.subset he)) hc'
      · rename_i h2
        apply ih _ hc'
        intro e he
        simp only [List.mem_append, List.mem_singleton] at he
        rcases he with he | rfl
        · exact hd e he
        · exact ⟨h1.1, h1.2, h2, hc e (by simp)⟩

theorem place_plain {cwd : List Str} (h : ∀ e ∈ cwd, PlainElem e) (p : Str) : ∀ e ∈ place cwd p, PlainElem e := by
  unfold place
  apply walk_plain_all
  · split
    · simp
    · exact h
  · intro e he; exact not_mem_of_mem_splitOn he

theorem parts_slash (s : Str) : pathParts (0x2F :: s) = pathParts s := by
  unfold pathParts
  rw [show 0x2F :: s = [] ++ 0x2F :: s from rfl, splitOn_append]
  simp [splitOn]

theorem parts_join {ps : List Str} (h : ∀ p ∈ ps, PlainElem p) : pathParts (joinWith 0x2F ps) = ps := by
  unfold pathParts
  cases ps with
  | nil => simp [joinWith, splitOn]
  | cons p ps =>
    rw [splitOn_joinWith (by simp) (fun q hq => (h q hq).2.2.2)]
    rw [List.filter_eq_self]
    intro q hq
    simpa using (h q hq).1

theorem parts_normpath {q : Str} (hq : q.head? = some 0x2F) : pathParts (normpath q) = place [] q := by
  have hne : q ≠ [] := by rintro rfl; simp at hq
  have hc : normComps true [] (splitOn 0x2F q) = place [] q := by
    rw [normComps_abs (by simp)]
    simp [place, hq]
  have hp : ∀ e ∈ place [] q, PlainElem e := place_plain (by simp) q
  unfold normpath
  simp only [if_neg hne, hq, beq_self_eq_true, if_true, hc]
  have key : ∀ s : Str, pathParts (if 0x2F :: s = [] then [0x2E] else 0x2F :: s) = pathParts s := by
    intro s; rw [if_neg (by simp), parts_slash]
  split
  · rw [show ([0x2F, 0x2F] : Str) ++ joinWith 0x2F (place [] q) = 0x2F :: (0x2F :: joinWith 0x2F (place [] q)) from rfl, key, parts_slash, parts_join hp]
  · rw [show ([0x2F] : Str) ++ joinWith 0x2F (place [] q) = 0x2F :: joinWith 0x2F (place [] q) from rfl, key, parts_join hp]

/-- The components of the absolute path are the place. -/
theorem parts_abspath {cwd : Str} (hcwd : cwd.head? = some 0x2F) (p : Str) : pathParts (abspath cwd p) = place (place [] cwd) p := by
  unfold abspath
  by_cases hp : p.head? = some 0x2F
  · rw [if_pos hp, parts_normpath hp]
    simp [place, hp]
  · rw [if_neg hp]
    have hne : cwd ≠ [] := by rintro rfl; simp at hcwd
    have hhead : ∀ x : Str, (cwd ++ x).head? = some 0x2F := by
      intro x
      cases cwd with
      | nil => exact absurd rfl hne
      | cons c r => simpa using hcwd
    unfold posixJoin2
    rw [if_neg hp]
    split
    · rename_i h
      rcases h with h | h
      · exact absurd h hne
      · rw [parts_normpath (hhead p)]
        obtain ⟨c, rfl⟩ : ∃ c, cwd = c ++ [0x2F] := by
          rcases List.eq_nil_or_concat cwd with rfl | ⟨c, x, rfl⟩
          · exact absurd rfl hne
          · rw [List.concat_eq_append] at *
            simp at h
            exact ⟨c, by rw [h]⟩
        simp only [place, hhead p, hcwd, if_true, if_neg hp]
        rw [List.append_assoc, show ([0x2F] : Str) ++ p = 0x2F :: p from rfl, splitOn_append, splitOn_append, walk_append, walk_append]
        simp [splitOn, walk]
    · rw [parts_normpath (hhead _)]
      simp only [place, hhead, hcwd, if_true, if_neg hp]
      rw [splitOn_append, walk_append]

theorem commonLength_spec (s p : List Str) : commonLength s p ≤ s.length ∧ s.take (commonLength s p) = p.take (commonLength s p) := by
  induction s generalizing p with
  | nil => simp [commonLength]
  | cons a s ih =>
    cases p with
    | nil => simp [commonLength]
    | cons b p =>
      unfold commonLength
      split
      · rename_i h
        subst h
        have := ih p
        exact ⟨by simp; omega, by simp [this.2]⟩
      · simp

theorem commonLength_prefix (s p : List Str) : commonLength s p = s.length ↔ s <+: p := by
  induction s generalizing p with
  | nil => simp [commonLength]
  | cons a s ih =>
    cases p with
    | nil => simp [commonLength]
    | cons b p =>
      unfold commonLength
      split
      · rename_i h
        subst h
        rw [List.prefix_cons_inj, ← ih]; simp
      · rename_i h
        rw [List.cons_prefix_cons]
        simp [h]

theorem walk_up (s : List Str) : ∀ k, walk s (List.replicate k [0x2E, 0x2E]) = s.take (s.length - k) := by
  intro k
  induction k generalizing s with
  | zero => simp [walk]
  | succ k ih =>
    rw [List.replicate_succ, walk, if_neg (by simp), if_pos rfl, ih, List.dropLast_eq_take]
    simp only [List.length_take, List.take_take]
    congr 1
    omega

/-- The elements of `relpath`. -/
def relElems (s p : List Str) : List Str :=
  List.replicate (s.length - commonLength s p) [0x2E, 0x2E] ++ p.drop (commonLength s p)

theorem walk_rel {s p : List Str} (hp : ∀ e ∈ p, PlainElem e) : walk s (relElems s p) = p := by
  unfold relElems
  have h := commonLength_spec s p
  rw [walk_append, walk_up, walk_plain (fun e he => hp e (List.mem_of_mem_drop he)),
    show s.length - (s.length - commonLength s p) = commonLength s p by omega, h.2, List.take_append_drop]

theorem relpath_eq {cwd : Str} (hcwd : cwd.head? = some 0x2F) {path : Str} (hp : path ≠ []) (start : Str) :
    relpath cwd path start =
      let r := relElems (place (place [] cwd) start) (place (place [] cwd) path)
      .ok (if r = [] then [0x2E] else joinWith 0x2F r) := by
  unfold relpath relElems
  rw [if_neg hp, parts_abspath hcwd, parts_abspath hcwd]

theorem relElems_no_slash {s p : List Str} (hp : ∀ e ∈ p, PlainElem e) : ∀ e ∈ relElems s p, 0x2F ∉ e ∧ e ≠ [] := by
  intro e he
  unfold relElems at he
  rcases List.mem_append.1 he with h | h
  · rw [List.mem_replicate] at h
    rw [h.2]; decide
  · have := hp e (List.mem_of_mem_drop h)
    exact ⟨this.2.2.2, this.1⟩

end Rescene
