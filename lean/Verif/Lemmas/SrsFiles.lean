import Verif.Model.SrsFiles
import Verif.Lemmas.Faults
import Verif.Lemmas.Paths
namespace Rescene
open Spec

theorem content_eq (a : Attempt) : a.content = chunksVal a.chunks := by
  unfold Attempt.content
  generalize a.chunks = l
  induction l with
  | nil => rfl
  | cons x t ih =>
    cases x with
    | error e => rfl
    | ok b =>
      simp only [List.mapM_cons, id, ok_bind, chunksVal, bind_assoc]
      rw [← ih]
      cases List.mapM id t with
      | error e => rfl
      | ok l => rfl

/-- The same files outside `T`. -/
def SameOff (T : Path → Prop) (fs fs' : FS) : Prop := ∀ q, ¬ T q → fs' q = fs q

theorem SameOff.set {T : Path → Prop} {fs fs' : FS} {p : Path} {c : Option Bytes} (h : SameOff T fs fs') (hp : T p) :
    SameOff T fs (fs'.set p c) := by
  intro q hq
  rw [FS.set_ne _ _ (by rintro rfl; exact hq hp)]
  exact h q hq

/-- Writing one attempt. -/
theorem run_srsWrite {j : SrsJob} {a : Attempt} {k : Prog} {T : Path → Prop} {fs0 fs : FS} {faults : List Fault}
    {P : FS × Res Unit → Prop} (hT : T (j.loc (j.tmp a))) (hs : SameOff T fs0 fs)
    (hf : FaultsIn Act.isIo (srsWrite j a k) fs faults)
    (hk : ∀ fs' d fl, SameOff T fs0 fs' → a.content = .ok d → fs' (j.loc (j.tmp a)) = some d →
      FaultsIn Act.isIo k fs' fl → P (run k fs' fl))
    (he : ∀ e fs', SameOff T fs0 fs' → P (fs', .error e)) :
    P (run (srsWrite j a k) fs faults) := by
  unfold srsWrite at hf ⊢
  rw [run, FaultsIn] at *
  obtain ⟨_, hf⟩ := hf
  cases hfl : faults.headD none with
  | some x =>
    simp only [step]
    exact he _ _ hs
  | none =>
    rw [hfl] at hf
    simp only [step] at hf ⊢
    refine run_writeChunks_faults (c := []) (P := P) ?_ ?_ hf
    · intro w fl hw hfk
      rw [List.nil_append] at hfk ⊢
      rw [run, FaultsIn] at *
      obtain ⟨_, hfk⟩ := hfk
      rw [step_close] at hfk ⊢
      cases hfl2 : fl.headD none with
      | some y => exact he _ _ (hs.set hT)
      | none =>
        rw [hfl2] at hfk
        exact hk _ w _ (hs.set hT) (by rw [content_eq, hw]) (FS.set_eq _ _ _) hfk
    · intro e w fl _
      exact he _ _ (hs.set hT)

/-- Putting the file in place, when deleting and renaming do not fail by themselves. -/
theorem run_replaceResult {j : SrsJob} {a : Attempt} {k : Prog} {T : Path → Prop} {fs0 fs : FS} {faults : List Fault} {d : Bytes}
    {P : FS × Res Unit → Prop} (hT : T (j.loc (j.tmp a))) (hR : ¬ T (j.loc j.result)) (hs : SameOff T fs0 fs)
    (hd : fs (j.loc (j.tmp a)) = some d)
    (hf : FaultsIn Act.isIo (replaceResult j (j.tmp a) j.result k) fs faults)
    (hk : ∀ fs' fl, (∀ q, ¬ T q → q ≠ j.loc j.result → fs' q = fs0 q) → fs' (j.loc j.result) = some d →
      FaultsIn Act.isIo k fs' fl → P (run k fs' fl))
    (he : P (fs, .error .assertError)) :
    P (run (replaceResult j (j.tmp a) j.result k) fs faults) := by
  have hne : j.loc (j.tmp a) ≠ j.loc j.result := by intro h; rw [h] at hT; exact hR hT
  unfold replaceResult at hf ⊢
  split
  · rename_i hp
    rw [if_pos hp] at hf
    have fin : ∀ fs1 fl, (∀ q, ¬ T q → q ≠ j.loc j.result → fs1 q = fs0 q) → fs1 (j.loc (j.tmp a)) = some d →
        FaultsIn Act.isIo (Prog.act (.rename (j.loc (j.tmp a)) (j.loc j.result)) k
          (fun e => if e = .envError then .act (.unlink (j.loc (j.tmp a))) (raise e) raise else raise e)) fs1 fl →
        P (run (Prog.act (.rename (j.loc (j.tmp a)) (j.loc j.result)) k
          (fun e => if e = .envError then .act (.unlink (j.loc (j.tmp a))) (raise e) raise else raise e)) fs1 fl) := by
      intro fs1 fl h1 h2 hf1
      rw [run, FaultsIn] at *
      obtain ⟨h0, hf1⟩ := hf1
      have hn : fl.headD none = none := by
        cases hx : fl.headD none with
        | none => rfl
        | some x => rw [hx] at h0; exact absurd (h0 (by simp)) (by simp [Act.isIo])
      rw [hn] at hf1 ⊢
      simp only [step, h2] at hf1 ⊢
      refine hk _ _ ?_ (FS.set_eq _ _ _) hf1
      intro q hq hqr
      rw [FS.set_ne _ _ hqr, FS.set_ne _ _ (by rintro rfl; exact hq hT)]
      exact h1 q hq hqr
    dsimp only at hf ⊢
    rw [run, FaultsIn] at *
    obtain ⟨h0, hf⟩ := hf
    have hn : faults.headD none = none := by
      cases hx : faults.headD none with
      | none => rfl
      | some x => rw [hx] at h0; exact absurd (h0 (by simp)) (by simp [Act.isIo])
    rw [hn] at hf ⊢
    by_cases hex : (fs (j.loc j.result)).isSome
    · simp only [step, hex, if_true] at hf ⊢
      refine fin _ _ ?_ ?_ hf
      · intro q hq hqr
        rw [FS.set_ne _ _ hqr]
        exact hs q hq
      · rw [FS.set_ne _ _ hne]; exact hd
    · simp only [step, hex, if_false, Bool.false_eq_true, if_true] at hf ⊢
      exact fin _ _ (fun q hq _ => hs q hq) hd hf
  · exact he

/-- How a run of `srs` can end. -/
inductive SrsEnd (j : SrsJob) (T : Path → Prop) (fs : FS) : FS × Res Unit → Prop
  | unchanged {fs' e} : SameOff T fs fs' → SrsEnd j T fs (fs', .error e)
  | good {fs' a d} : a ∈ j.first :: j.retries → a.content = .ok d → (crc32 d 0).toNat = j.crc →
      fs' (j.loc j.result) = some d → (∀ q, ¬ T q → q ≠ j.loc j.result → fs' q = fs q) → SrsEnd j T fs (fs', .ok ())
  | kept {fs' e a d} : a ∈ j.first :: j.retries → a.content = .ok d → (crc32 d 0).toNat ≠ j.crc → j.keep = true →
      ¬ (j.music = true ∧ j.loc j.movie = j.loc j.result) → fs' (j.loc j.result) = some d →
      (∀ q, ¬ T q → q ≠ j.loc j.result → fs' q = fs q) → SrsEnd j T fs (fs', .error e)
  | deleted {fs' e} : j.keep = false →
      ¬ (j.music = true ∧ j.loc j.movie = j.loc j.result) → fs' (j.loc j.result) = none →
      (∀ q, ¬ T q → q ≠ j.loc j.result → fs' q = fs q) → SrsEnd j T fs (fs', .error e)

theorem good_iff {j : SrsJob} {a : Attempt} {d : Bytes} (h : a.content = .ok d) :
    j.good a = true ↔ (crc32 d 0).toNat = j.crc := by
  unfold SrsJob.good
  rw [h]
  simp

theorem run_srsFinish {j : SrsJob} {a : Attempt} {T : Path → Prop} {fs0 fs : FS} {faults : List Fault} {d : Bytes}
    (ha : a ∈ j.first :: j.retries) (hT : T (j.loc (j.tmp a))) (hR : ¬ T (j.loc j.result)) (hs : SameOff T fs0 fs)
    (hc : a.content = .ok d) (hd : fs (j.loc (j.tmp a)) = some d)
    (hf : FaultsIn Act.isIo (srsFinish j a) fs faults) :
    SrsEnd j T fs0 (run (srsFinish j a) fs faults) := by
  have keepCase : ∀ fl, (crc32 d 0).toNat ≠ j.crc → j.keep = true → ¬ (j.music = true ∧ j.loc j.movie = j.loc j.result) →
      FaultsIn Act.isIo (replaceResult j (j.tmp a) j.result (raise .other)) fs fl →
      SrsEnd j T fs0 (run (replaceResult j (j.tmp a) j.result (raise .other)) fs fl) := by
    intro fl hbad hk hm hf
    refine run_replaceResult hT hR hs hd hf ?_ (.unchanged hs)
    intro fs' fl' h1 h2 _
    exact .kept ha hc hbad hk hm h2 h1
  have delCase : ∀ fl, j.keep = false → ¬ (j.music = true ∧ j.loc j.movie = j.loc j.result) →
      FaultsIn Act.isIo (replaceResult j (j.tmp a) j.result (.act (.unlink (j.loc j.result)) (raise .other) raise)) fs fl →
      SrsEnd j T fs0 (run (replaceResult j (j.tmp a) j.result (.act (.unlink (j.loc j.result)) (raise .other) raise)) fs fl) := by
    intro fl hk hm hf
    refine run_replaceResult hT hR hs hd hf ?_ (.unchanged hs)
    intro fs' fl' h1 h2 hf1
    rw [run, FaultsIn] at *
    obtain ⟨h0, hf1⟩ := hf1
    have hn : fl'.headD none = none := by
      cases hx : fl'.headD none with
      | none => rfl
      | some x => rw [hx] at h0; exact absurd (h0 (by simp)) (by simp [Act.isIo])
    rw [hn]
    simp only [step, h2, Option.isSome_some, if_true]
    refine .deleted hk hm (FS.set_eq _ _ _) ?_
    intro q hq hqr
    rw [FS.set_ne _ _ hqr]
    exact h1 q hq hqr
  unfold srsFinish at hf ⊢
  by_cases hg : j.good a = true
  · rw [if_pos hg] at hf ⊢
    refine run_replaceResult hT hR hs hd hf ?_ (.unchanged hs)
    intro fs' fl h1 h2 _
    exact .good ha hc ((good_iff hc).1 hg) h2 h1
  · rw [if_neg hg] at hf ⊢
    have hbad : (crc32 d 0).toNat ≠ j.crc := fun h => hg ((good_iff hc).2 h)
    by_cases hk : j.keep = true
    · rw [if_pos hk] at hf ⊢
      by_cases hm : j.music = false
      · rw [if_pos hm] at hf ⊢
        exact keepCase _ hbad hk (by rw [hm]; simp) hf
      · rw [if_neg hm] at hf ⊢
        by_cases hl : j.loc j.movie = j.loc j.result
        · rw [if_pos hl]
          exact .unchanged hs
        · rw [if_neg hl] at hf ⊢
          exact keepCase _ hbad hk (fun h => hl h.2) hf
    · rw [if_neg hk] at hf ⊢
      have hk' : j.keep = false := by simpa using hk
      by_cases hm : j.music = false
      · rw [if_pos hm] at hf ⊢
        exact delCase _ hk' (by rw [hm]; simp) hf
      · rw [if_neg hm] at hf ⊢
        by_cases hl : j.loc j.movie = j.loc j.result
        · rw [if_pos hl]
          exact .unchanged hs
        · rw [if_neg hl] at hf ⊢
          exact delCase _ hk' (fun h => hl h.2) hf

theorem run_srsRetry {j : SrsJob} {T : Path → Prop} {fs0 : FS} (hR : ¬ T (j.loc j.result))
    (hTs : ∀ a ∈ j.first :: j.retries, T (j.loc (j.tmp a))) (l : List Attempt) :
    ∀ (prev : Option Attempt) (fs : FS) (faults : List Fault), (∀ a ∈ l, a ∈ j.first :: j.retries) →
      (∀ p, prev = some p → p ∈ j.first :: j.retries ∧ ∃ d, p.content = .ok d ∧ fs (j.loc (j.tmp p)) = some d) →
      SameOff T fs0 fs → FaultsIn Act.isIo (srsRetry j prev l) fs faults →
      SrsEnd j T fs0 (run (srsRetry j prev l) fs faults) := by
  induction l with
  | nil =>
    intro prev fs faults _ hp hs hf
    cases prev with
    | none => rw [srsRetry] at *; exact .unchanged hs
    | some p =>
      rw [srsRetry] at *
      obtain ⟨h1, d, h2, h3⟩ := hp p rfl
      exact run_srsFinish h1 (hTs p h1) hR hs h2 h3 hf
  | cons a rest ih =>
    intro prev fs faults hl hp hs hf
    have ha := hl a (by simp)
    have go : ∀ fs1 fl, SameOff T fs0 fs1 →
        FaultsIn Act.isIo (srsWrite j a (if j.good a then srsFinish j a else srsRetry j (some a) rest)) fs1 fl →
        SrsEnd j T fs0 (run (srsWrite j a (if j.good a then srsFinish j a else srsRetry j (some a) rest)) fs1 fl) := by
      intro fs1 fl hs1 hf1
      refine run_srsWrite (hTs a ha) hs1 hf1 ?_ (fun e fs' h => .unchanged h)
      intro fs' d fl' h1 h2 h3 hf2
      by_cases hg : j.good a = true
      · rw [if_pos hg] at hf2 ⊢
        exact run_srsFinish ha (hTs a ha) hR h1 h2 h3 hf2
      · rw [if_neg hg] at hf2 ⊢
        refine ih (some a) fs' fl' (fun x hx => hl x (by simp [hx])) ?_ h1 hf2
        intro p hp
        injection hp with hp
        subst hp
        exact ⟨ha, d, h2, h3⟩
    cases prev with
    | none => rw [srsRetry] at *; exact go fs faults hs hf
    | some p =>
      rw [srsRetry] at *
      rw [run, FaultsIn] at *
      obtain ⟨h0, hf⟩ := hf
      have hn : faults.headD none = none := by
        cases hx : faults.headD none with
        | none => rfl
        | some x => rw [hx] at h0; exact absurd (h0 (by simp)) (by simp [Act.isIo])
      obtain ⟨h1, d, h2, h3⟩ := hp p rfl
      rw [hn] at hf ⊢
      simp only [step, h3, Option.isSome_some, if_true] at hf ⊢
      exact go _ _ (hs.set (hTs p h1)) hf

theorem run_srsFiles {j : SrsJob} {T : Path → Prop} {fs : FS} {faults : List Fault} (hR : ¬ T (j.loc j.result))
    (hTs : ∀ a ∈ j.first :: j.retries, T (j.loc (j.tmp a)))
    (hf : FaultsIn Act.isIo (srsFiles j) fs faults) :
    SrsEnd j T fs (run (srsFiles j) fs faults) := by
  have same : SameOff T fs fs := fun q _ => rfl
  unfold srsFiles at hf ⊢
  split
  · rename_i hal
    rw [if_pos hal] at hf
    refine run_srsWrite (hTs _ (by simp)) same hf ?_ (fun e fs' h => .unchanged h)
    intro fs' d fl' h1 h2 h3 hf2
    by_cases hg : j.good j.first = true
    · rw [if_pos hg] at hf2 ⊢
      exact run_srsFinish (by simp) (hTs _ (by simp)) hR h1 h2 h3 hf2
    · rw [if_neg hg] at hf2 ⊢
      by_cases hr : j.retries = []
      · rw [if_pos hr] at hf2 ⊢
        exact run_srsFinish (by simp) (hTs _ (by simp)) hR h1 h2 h3 hf2
      · rw [if_neg hr] at hf2 ⊢
        exact run_srsRetry hR hTs _ none fs' fl' (fun x hx => by simp [hx]) (fun p hp => by simp at hp) h1 hf2
  · exact .unchanged same

end Rescene

namespace Rescene
open Spec

/-! ### Moments -/

theorem moment_raise {may : Act → Bool} {e : Err} {fs m : FS} (h : Moment may (raise e) fs m) : m = fs := moment_done h

theorem moment_srsWrite {j : SrsJob} {a : Attempt} {k : Prog} {T : Path → Prop} {fs0 fs m : FS}
    (hT : T (j.loc (j.tmp a))) (hs : SameOff T fs0 fs) (hm : Moment Act.isIo (srsWrite j a k) fs m) :
    SameOff T fs0 m ∨ ∃ fs' d, SameOff T fs0 fs' ∧ a.content = .ok d ∧ fs' (j.loc (j.tmp a)) = some d ∧
      Moment Act.isIo k fs' m := by
  unfold srsWrite at hm
  cases hm with
  | now => exact Or.inl hs
  | @fail _ _ _ _ f _ e _ hst _ hm =>
    rw [moment_raise hm]
    cases f with
    | none => simp [step] at hst
    | some x =>
      simp only [step, Prod.mk.injEq] at hst
      rw [← hst.1]
      exact Or.inl hs
  | step hst hm =>
    simp only [step, Prod.mk.injEq] at hst
    obtain ⟨rfl, _⟩ := hst
    rcases moment_writeChunks hm with h | ⟨w, hw, hm⟩ | ⟨e, w, hm⟩
    · refine Or.inl (fun q hq => ?_)
      rw [h q (by rintro rfl; exact hq hT)]
      exact hs q hq
    · rw [List.nil_append] at hm
      have hs' : SameOff T fs0 (fs.set (j.loc (j.tmp a)) (some w)) := hs.set hT
      cases hm with
      | now => exact Or.inl hs'
      | fail hst _ hm =>
        rw [moment_raise hm]
        rw [step_close] at hst
        simp only [Prod.mk.injEq] at hst
        rw [← hst.1]
        exact Or.inl hs'
      | step hst hm =>
        rw [step_close] at hst
        simp only [Prod.mk.injEq] at hst
        obtain ⟨rfl, _⟩ := hst
        exact Or.inr ⟨_, w, hs', by rw [content_eq, hw], FS.set_eq _ _ _, hm⟩
    · rw [moment_raise hm]
      exact Or.inl (hs.set hT)

theorem moment_replaceResult {j : SrsJob} {a : Attempt} {k : Prog} {T : Path → Prop} {fs0 fs m : FS} {d : Bytes}
    (hT : T (j.loc (j.tmp a))) (hR : ¬ T (j.loc j.result)) (hs : SameOff T fs0 fs)
    (hd : fs (j.loc (j.tmp a)) = some d)
    (hm : Moment Act.isIo (replaceResult j (j.tmp a) j.result k) fs m) :
    SameOff T fs0 m ∨ ((∀ q, ¬ T q → q ≠ j.loc j.result → m q = fs0 q) ∧ m (j.loc (j.tmp a)) = some d) ∨
    ∃ fs', (∀ q, ¬ T q → q ≠ j.loc j.result → fs' q = fs0 q) ∧ fs' (j.loc j.result) = some d ∧ Moment Act.isIo k fs' m := by
  have hne : j.loc (j.tmp a) ≠ j.loc j.result := by intro h; rw [h] at hT; exact hR hT
  have fin : ∀ fs1, (∀ q, ¬ T q → q ≠ j.loc j.result → fs1 q = fs0 q) → fs1 (j.loc (j.tmp a)) = some d →
      Moment Act.isIo (Prog.act (.rename (j.loc (j.tmp a)) (j.loc j.result)) k
        (fun e => if e = .envError then .act (.unlink (j.loc (j.tmp a))) (raise e) raise else raise e)) fs1 m →
      ((∀ q, ¬ T q → q ≠ j.loc j.result → m q = fs0 q) ∧ m (j.loc (j.tmp a)) = some d) ∨
      ∃ fs', (∀ q, ¬ T q → q ≠ j.loc j.result → fs' q = fs0 q) ∧ fs' (j.loc j.result) = some d ∧ Moment Act.isIo k fs' m := by
    intro fs1 h1 h2 hm
    cases hm with
    | now => exact Or.inl ⟨h1, h2⟩
    | @fail _ _ _ _ f _ e _ hst hmay hm =>
      cases f with
      | none => simp only [step, h2, Prod.mk.injEq, reduceCtorEq, and_false] at hst
      | some x => exact absurd (hmay (by simp)) (by simp [Act.isIo])
    | step hst hm =>
      simp only [step, h2, Prod.mk.injEq, and_true] at hst
      subst hst
      refine Or.inr ⟨_, ?_, FS.set_eq _ _ _, hm⟩
      intro q hq hqr
      rw [FS.set_ne _ _ hqr, FS.set_ne _ _ (by rintro rfl; exact hq hT)]
      exact h1 q hq hqr
  unfold replaceResult at hm
  split at hm
  · cases hm with
    | now => exact Or.inl hs
    | @fail _ _ _ _ f _ e _ hst hmay hm =>
      cases f with
      | none =>
        simp only [step] at hst
        split at hst
        · simp at hst
        · simp only [Prod.mk.injEq, Option.some.injEq] at hst
          obtain ⟨rfl, rfl⟩ := hst
          dsimp only at hm
          rw [if_pos rfl] at hm
          exact Or.inr (fin _ (fun q hq _ => hs q hq) hd hm)
      | some x => exact absurd (hmay (by simp)) (by simp [Act.isIo])
    | step hst hm =>
      simp only [step] at hst
      split at hst
      · simp only [Prod.mk.injEq, and_true] at hst
        subst hst
        refine Or.inr (fin _ ?_ ?_ hm)
        · intro q hq hqr
          rw [FS.set_ne _ _ hqr]
          exact hs q hq
        · rw [FS.set_ne _ _ hne]; exact hd
      · simp at hst
  · rw [moment_raise hm]
    exact Or.inl hs

/-- What is on disk at any moment. -/
def SrsMoment (j : SrsJob) (T : Path → Prop) (fs m : FS) : Prop :=
  (∀ q, ¬ T q → q ≠ j.loc j.result → m q = fs q) ∧
  (m (j.loc j.result) = fs (j.loc j.result) ∨
    (∃ a ∈ j.first :: j.retries, ∃ d, a.content = .ok d ∧ (crc32 d 0).toNat = j.crc ∧
      (m (j.loc j.result) = some d ∨ m (j.loc (j.tmp a)) = some d)) ∨
    ¬ (j.music = true ∧ j.loc j.movie = j.loc j.result))

theorem SrsMoment.same {j : SrsJob} {T : Path → Prop} {fs m : FS} (hR : ¬ T (j.loc j.result)) (h : SameOff T fs m) :
    SrsMoment j T fs m := ⟨fun q hq _ => h q hq, Or.inl (h _ hR)⟩

theorem moment_srsFinish {j : SrsJob} {a : Attempt} {T : Path → Prop} {fs0 fs m : FS} {d : Bytes}
    (ha : a ∈ j.first :: j.retries) (hT : T (j.loc (j.tmp a))) (hR : ¬ T (j.loc j.result)) (hs : SameOff T fs0 fs)
    (hc : a.content = .ok d) (hd : fs (j.loc (j.tmp a)) = some d) (hm : Moment Act.isIo (srsFinish j a) fs m) :
    SrsMoment j T fs0 m := by
  have other : ∀ k, ¬ (j.music = true ∧ j.loc j.movie = j.loc j.result) →
      (∀ fs' m, Moment Act.isIo k fs' m → ∀ q, q ≠ j.loc j.result → m q = fs' q) →
      Moment Act.isIo (replaceResult j (j.tmp a) j.result k) fs m → SrsMoment j T fs0 m := by
    intro k hnm hk hm
    rcases moment_replaceResult hT hR hs hd hm with h | ⟨h, _⟩ | ⟨fs', h1, h2, h3⟩
    · exact .same hR h
    · exact ⟨h, Or.inr (Or.inr hnm)⟩
    · refine ⟨fun q hq hqr => ?_, Or.inr (Or.inr hnm)⟩
      rw [hk _ _ h3 q hqr]
      exact h1 q hq hqr
  have k1 : ∀ (e : Err) (fs' m : FS), Moment Act.isIo (raise e) fs' m → ∀ q, q ≠ j.loc j.result → m q = fs' q := by
    intro e fs' m h q _
    rw [moment_raise h]
  have k2 : ∀ (fs' m : FS), Moment Act.isIo (.act (.unlink (j.loc j.result)) (raise .other) raise) fs' m →
      ∀ q, q ≠ j.loc j.result → m q = fs' q := by
    intro fs' m h q hq
    exact moment_cleanup (fun e => ⟨_, rfl⟩) h q hq
  unfold srsFinish at hm
  split at hm
  · rename_i hg
    rcases moment_replaceResult hT hR hs hd hm with h | ⟨h, h2⟩ | ⟨fs', h1, h2, h3⟩
    · exact .same hR h
    · exact ⟨h, Or.inr (Or.inl ⟨a, ha, d, hc, (good_iff hc).1 hg, Or.inr h2⟩)⟩
    · rw [moment_done h3]
      exact ⟨h1, Or.inr (Or.inl ⟨a, ha, d, hc, (good_iff hc).1 hg, Or.inl h2⟩)⟩
  · split at hm
    · split at hm
      · rename_i hmu
        exact other _ (by rw [hmu]; simp) (k1 _) hm
      · split at hm
        · rw [moment_raise hm]; exact .same hR hs
        · rename_i hl
          exact other _ (fun h => hl h.2) (k1 _) hm
    · split at hm
      · rename_i hmu
        exact other _ (by rw [hmu]; simp) k2 hm
      · split at hm
        · rw [moment_raise hm]; exact .same hR hs
        · rename_i hl
          exact other _ (fun h => hl h.2) k2 hm

theorem moment_srsRetry {j : SrsJob} {T : Path → Prop} {fs0 m : FS} (hR : ¬ T (j.loc j.result))
    (hTs : ∀ a ∈ j.first :: j.retries, T (j.loc (j.tmp a))) (l : List Attempt) :
    ∀ (prev : Option Attempt) (fs : FS), (∀ a ∈ l, a ∈ j.first :: j.retries) →
      (∀ p, prev = some p → p ∈ j.first :: j.retries ∧ ∃ d, p.content = .ok d ∧ fs (j.loc (j.tmp p)) = some d) →
      SameOff T fs0 fs → Moment Act.isIo (srsRetry j prev l) fs m → SrsMoment j T fs0 m := by
  induction l with
  | nil =>
    intro prev fs _ hp hs hm
    cases prev with
    | none => rw [srsRetry] at hm; rw [moment_raise hm]; exact .same hR hs
    | some p =>
      rw [srsRetry] at hm
      obtain ⟨h1, d, h2, h3⟩ := hp p rfl
      exact moment_srsFinish h1 (hTs p h1) hR hs h2 h3 hm
  | cons a rest ih =>
    intro prev fs hl hp hs hm
    have ha := hl a (by simp)
    have go : ∀ fs1, SameOff T fs0 fs1 →
        Moment Act.isIo (srsWrite j a (if j.good a then srsFinish j a else srsRetry j (some a) rest)) fs1 m →
        SrsMoment j T fs0 m := by
      intro fs1 hs1 hm1
      rcases moment_srsWrite (hTs a ha) hs1 hm1 with h | ⟨fs', d, h1, h2, h3, hm2⟩
      · exact .same hR h
      · split at hm2
        · exact moment_srsFinish ha (hTs a ha) hR h1 h2 h3 hm2
        · refine ih (some a) fs' (fun x hx => hl x (by simp [hx])) ?_ h1 hm2
          intro p hp
          injection hp with hp
          subst hp
          exact ⟨ha, d, h2, h3⟩
    cases prev with
    | none => rw [srsRetry] at hm; exact go fs hs hm
    | some p =>
      rw [srsRetry] at hm
      obtain ⟨h1, d, h2, h3⟩ := hp p rfl
      cases hm with
      | now => exact .same hR hs
      | @fail _ _ _ _ f _ e _ hst hmay hm =>
        cases f with
        | none => simp [step, h3] at hst
        | some x => exact absurd (hmay (by simp)) (by simp [Act.isIo])
      | step hst hm =>
        simp only [step, h3, Option.isSome_some, if_true, Prod.mk.injEq, and_true] at hst
        subst hst
        exact go _ (hs.set (hTs p h1)) hm

theorem moment_srsFiles {j : SrsJob} {T : Path → Prop} {fs m : FS} (hR : ¬ T (j.loc j.result))
    (hTs : ∀ a ∈ j.first :: j.retries, T (j.loc (j.tmp a))) (hm : Moment Act.isIo (srsFiles j) fs m) :
    SrsMoment j T fs m := by
  have same : SameOff T fs fs := fun q _ => rfl
  unfold srsFiles at hm
  split at hm
  · rcases moment_srsWrite (hTs _ (by simp)) same hm with h | ⟨fs', d, h1, h2, h3, hm2⟩
    · exact .same hR h
    · split at hm2
      · exact moment_srsFinish (by simp) (hTs _ (by simp)) hR h1 h2 h3 hm2
      · split at hm2
        · exact moment_srsFinish (by simp) (hTs _ (by simp)) hR h1 h2 h3 hm2
        · exact moment_srsRetry hR hTs _ none fs' (fun x hx => by simp [hx]) (fun p hp => by simp at hp) h1 hm2
  · rw [moment_raise hm]
    exact .same hR same

end Rescene
