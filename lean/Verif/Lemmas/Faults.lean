import Verif.Lemmas.Edit
namespace Rescene
open Spec

theorem step_read {p : Path} {fs : FS} {f : Fault} :
    step (.read p) fs f = (fs, f.map (·.1)) := by
  cases f with
  | none => rfl
  | some x => rfl

theorem step_close {p : Path} {fs : FS} {f : Fault} :
    step (.close p) fs f = (fs, f.map (·.1)) := by
  cases f with
  | none => rfl
  | some x => rfl

/-- Writing chunks changes only the file that is written, whatever happens. -/
theorem run_writeChunks_faults {may : Act → Bool} {src p : Path} {cs : List (Res Bytes)} {k : Prog} {h : Err → Prog}
    {fs0 : FS} {c : Bytes} {faults : List Fault}
    {P : FS × Res Unit → Prop}
    (hk : ∀ w fl, chunksVal cs = .ok w → FaultsIn may k (fs0.set p (some (c ++ w))) fl →
      P (run k (fs0.set p (some (c ++ w))) fl))
    (hh : ∀ e w fl, FaultsIn may (h e) (fs0.set p (some w)) fl → P (run (h e) (fs0.set p (some w)) fl))
    (hf : FaultsIn may (writeChunks src p cs k h) (fs0.set p (some c)) faults) :
    P (run (writeChunks src p cs k h) (fs0.set p (some c)) faults) := by
  induction cs generalizing c faults with
  | nil =>
    have := hk [] faults rfl
    rw [List.append_nil] at this
    exact this hf
  | cons x t ih =>
    cases x with
    | error e => exact hh e c faults hf
    | ok b =>
      simp only [writeChunks, run, FaultsIn, step_read] at hf ⊢
      obtain ⟨_, hf⟩ := hf
      cases hfl : faults.headD none with
      | some x =>
        rw [hfl] at hf
        exact hh _ _ _ hf
      | none =>
        rw [hfl] at hf
        simp only [Option.map_none, run, FaultsIn] at hf ⊢
        obtain ⟨_, hf⟩ := hf
        cases hfl2 : faults.tail.headD none with
        | some y =>
          rw [hfl2] at hf
          obtain ⟨e, n⟩ := y
          simp only [step, appendTo, FS.set_eq, Option.getD_some, FS.set_set] at hf ⊢
          exact hh _ _ _ hf
        | none =>
          rw [hfl2] at hf
          simp only [step, appendTo, FS.set_eq, Option.getD_some, FS.set_set] at hf ⊢
          refine ih ?_ hf
          intro w fl hw hfk
          have := hk (b ++ w) fl (by simp [chunksVal, hw])
          rw [← List.append_assoc] at this
          exact this hfk

/-- The moments of writing chunks. -/
theorem moment_writeChunks {may : Act → Bool} {src p : Path} {cs : List (Res Bytes)} {k : Prog} {h : Err → Prog}
    {fs0 m : FS} {c : Bytes} (hm : Moment may (writeChunks src p cs k h) (fs0.set p (some c)) m) :
    (∀ q, q ≠ p → m q = fs0 q) ∨
    (∃ w, chunksVal cs = .ok w ∧ Moment may k (fs0.set p (some (c ++ w))) m) ∨
    ∃ e w, Moment may (h e) (fs0.set p (some w)) m := by
  induction cs generalizing c with
  | nil => exact Or.inr (Or.inl ⟨[], rfl, by rw [List.append_nil]; exact hm⟩)
  | cons x t ih =>
    cases x with
    | error e => exact Or.inr (Or.inr ⟨e, c, hm⟩)
    | ok b =>
      simp only [writeChunks] at hm
      cases hm with
      | now => exact Or.inl (fun q hq => FS.set_ne _ _ hq)
      | fail hs _ hm =>
        rw [step_read] at hs
        simp only [Prod.mk.injEq] at hs
        obtain ⟨rfl, _⟩ := hs
        exact Or.inr (Or.inr ⟨_, _, hm⟩)
      | step hs hm =>
        rw [step_read] at hs
        simp only [Prod.mk.injEq] at hs
        obtain ⟨rfl, _⟩ := hs
        cases hm with
        | now => exact Or.inl (fun q hq => FS.set_ne _ _ hq)
        | writing =>
          refine Or.inl (fun q hq => ?_)
          simp only [appendTo]
          rw [FS.set_ne _ _ hq, FS.set_ne _ _ hq]
        | @fail _ _ _ _ f _ _ _ hs _ hm =>
          cases f with
          | none => simp [step] at hs
          | some y =>
            simp only [step, appendTo, FS.set_eq, Option.getD_some, FS.set_set, Prod.mk.injEq] at hs
            obtain ⟨rfl, _⟩ := hs
            exact Or.inr (Or.inr ⟨_, _, hm⟩)
        | step hs hm =>
          simp only [step, appendTo, FS.set_eq, Option.getD_some, FS.set_set, Prod.mk.injEq] at hs
          obtain ⟨rfl, _⟩ := hs
          rcases ih hm with h1 | ⟨w, h1, h2⟩ | h1
          · exact Or.inl h1
          · exact Or.inr (Or.inl ⟨b ++ w, by simp [chunksVal, h1], by rw [← List.append_assoc]; exact h2⟩)
          · exact Or.inr (Or.inr h1)

/-- The moments of the replacement. -/
theorem moment_replaceSrr {may : Act → Bool} {srr tmp : Path} {h : Err → Prog} {fs m : FS} {old new : Bytes}
    (hne : srr ≠ tmp) (hs : fs srr = some old) (ht : fs tmp = some new)
    (hm : Moment may (replaceSrr srr tmp h) fs m) :
    m srr = some old ∨ m srr = some new ∨ m tmp = some new ∨
      ∃ e, (may (.close tmp) = true ∨ may (.unlink srr) = true ∨ may (.rename tmp srr) = true) ∧
        (Moment may (h e) fs m ∨ Moment may (h e) (fs.set srr none) m) := by
  unfold replaceSrr at hm
  cases hm with
  | now => exact Or.inl hs
  | @fail _ _ _ _ f _ _ _ hst hmay hm =>
    rw [step_close] at hst
    simp only [Prod.mk.injEq] at hst
    obtain ⟨rfl, hst⟩ := hst
    cases f with
    | none => simp at hst
    | some y => exact Or.inr (Or.inr (Or.inr ⟨_, Or.inl (hmay (by simp)), Or.inl hm⟩))
  | step hst hm =>
    rw [step_close] at hst
    simp only [Prod.mk.injEq] at hst
    obtain ⟨rfl, _⟩ := hst
    cases hm with
    | now => exact Or.inl hs
    | @fail _ _ _ _ f _ _ _ hst hmay hm =>
      cases f with
      | none => simp [step, hs] at hst
      | some y =>
        simp only [step, Prod.mk.injEq] at hst
        obtain ⟨rfl, _⟩ := hst
        exact Or.inr (Or.inr (Or.inr ⟨_, Or.inr (Or.inl (hmay (by simp))), Or.inl hm⟩))
    | step hst hm =>
      simp only [step, hs, Option.isSome_some, if_true, Prod.mk.injEq] at hst
      obtain ⟨rfl, _⟩ := hst
      have ht' : (fs.set srr none) tmp = some new := by rw [FS.set_ne _ _ (Ne.symm hne), ht]
      cases hm with
      | now => exact Or.inr (Or.inr (Or.inl ht'))
      | @fail _ _ _ _ f _ _ _ hst hmay hm =>
        cases f with
        | none => simp [step, ht'] at hst
        | some y =>
          simp only [step, Prod.mk.injEq] at hst
          obtain ⟨rfl, _⟩ := hst
          exact Or.inr (Or.inr (Or.inr ⟨_, Or.inr (Or.inr (hmay (by simp))), Or.inr hm⟩))
      | step hst hm =>
        simp only [step, ht', Prod.mk.injEq] at hst
        obtain ⟨rfl, _⟩ := hst
        cases hm with
        | now => exact Or.inr (Or.inl (FS.set_eq _ _ _))

theorem moment_done {may : Act → Bool} {r : Res Unit} {fs m : FS} (h : Moment may (.done r) fs m) : m = fs := by
  cases h with
  | now => rfl

/-- Clean-up steps do not touch other files. -/
theorem moment_cleanup {may : Act → Bool} {tmp : Path} {e : Err} {fs m : FS} {r : Err → Prog}
    (hr : ∀ e, ∃ x, r e = .done x)
    (h : Moment may (.act (.unlink tmp) (.done (.error e)) r) fs m) : ∀ q, q ≠ tmp → m q = fs q := by
  intro q hq
  cases h with
  | now => rfl
  | @fail _ _ _ _ f _ e' _ hst _ hm =>
    obtain ⟨x, hx⟩ := hr e'
    rw [hx] at hm
    rw [moment_done hm]
    cases f with
    | none =>
      simp only [step] at hst
      split at hst <;> simp at hst
      rw [hst.1]
    | some y => simp [step] at hst; rw [hst.1]
  | step hst hm =>
    rw [moment_done hm]
    simp only [step] at hst
    split at hst <;> simp at hst
    rw [← hst, FS.set_ne _ _ hq]

theorem moment_cleanup2 {may : Act → Bool} {tmp : Path} {e : Err} {fs m : FS} {r : Err → Prog}
    (hr : ∀ e, ∃ x, r e = .done x)
    (h : Moment may (.act (.close tmp) (.act (.unlink tmp) (.done (.error e)) r) r) fs m) :
    ∀ q, q ≠ tmp → m q = fs q := by
  intro q hq
  cases h with
  | now => rfl
  | @fail _ _ _ _ f _ e' _ hst _ hm =>
    obtain ⟨x, hx⟩ := hr e'
    rw [hx] at hm
    rw [moment_done hm]
    rw [step_close] at hst
    simp only [Prod.mk.injEq] at hst
    rw [hst.1]
  | step hst hm =>
    rw [step_close] at hst
    simp only [Prod.mk.injEq] at hst
    obtain ⟨rfl, _⟩ := hst
    exact moment_cleanup hr hm q hq

end Rescene
