import Verif.Model.SrrCommand
import Verif.Lemmas.CreateFiles
import Verif.Lemmas.SrsFiles
/-
Programs one after the other.
-/
namespace Rescene
open Spec

theorem run_andThen (p : Prog) (k : Res Unit → Prog) (fs : FS) (faults : List Fault) :
    ∃ rest, (faults = [] → rest = []) ∧
      run (p.andThen k) fs faults = run (k (run p fs faults).2) (run p fs faults).1 rest := by
  induction p generalizing fs faults with
  | done r => exact ⟨faults, id, rfl⟩
  | act a ok fail ih1 ih2 =>
    rw [Prog.andThen]
    simp only [run]
    cases hst : step a fs (faults.headD none) with
    | mk fs' o =>
      cases o with
      | none =>
        obtain ⟨rest, h1, h2⟩ := ih1 fs' faults.tail
        exact ⟨rest, fun h => h1 (by rw [h]; rfl), h2⟩
      | some e =>
        obtain ⟨rest, h1, h2⟩ := ih2 e fs' faults.tail
        exact ⟨rest, fun h => h1 (by rw [h]; rfl), h2⟩

theorem moment_andThen {may : Act → Bool} {p : Prog} {k : Res Unit → Prog} {fs m : FS} (h : Moment may (p.andThen k) fs m) :
    Moment may p fs m ∨ ∃ faults fs' r, run p fs faults = (fs', r) ∧ FaultsIn may p fs faults ∧ Moment may (k r) fs' m := by
  induction p generalizing fs with
  | done r => exact Or.inr ⟨[], fs, r, rfl, trivial, h⟩
  | act a ok fail ih1 ih2 =>
    unfold Prog.andThen at h
    cases h with
    | now => exact Or.inl .now
    | writing => exact Or.inl .writing
    | @step _ _ _ _ fs' _ hs hm =>
      rcases ih1 hm with h | ⟨faults, fs'', r, h1, h2, h3⟩
      · exact Or.inl (.step hs h)
      · refine Or.inr ⟨none :: faults, fs'', r, ?_, ?_, h3⟩
        · unfold run
          rw [List.headD_cons, hs]
          exact h1
        · unfold FaultsIn
          rw [List.headD_cons, hs]
          exact ⟨fun h => absurd rfl h, h2⟩
    | @fail _ _ _ _ f fs' e _ hs hmay hm =>
      rcases ih2 e hm with h | ⟨faults, fs'', r, h1, h2, h3⟩
      · exact Or.inl (.fail hs hmay h)
      · refine Or.inr ⟨f :: faults, fs'', r, ?_, ?_, h3⟩
        · unfold run
          rw [List.headD_cons, hs]
          exact h1
        · unfold FaultsIn
          rw [List.headD_cons, hs]
          exact ⟨hmay, h2⟩

theorem run_no_faults {p : Prog} {fs : FS} {faults : List Fault} (h : FaultsIn (fun _ => false) p fs faults) :
    run p fs faults = run p fs [] := by
  induction p generalizing fs faults with
  | done r => rfl
  | act a ok fail ih1 ih2 =>
    unfold FaultsIn at h
    have h0 : faults.headD none = none := by
      cases hf : faults.headD none with
      | none => rfl
      | some x => exact absurd (h.1 (by rw [hf]; simp)) (by simp)
    have h2 := h.2
    rw [h0] at h2
    unfold run
    rw [h0, List.headD_nil, List.tail_nil]
    cases hst : step a fs none with
    | mk fs' o =>
      rw [hst] at h2
      cases o with
      | none => exact ih1 h2
      | some e => exact ih2 e h2

/-- The end of a run is one of its moments. -/
theorem run_moment (p : Prog) (fs : FS) (faults : List Fault) : Moment (fun _ => true) p fs (run p fs faults).1 := by
  induction p generalizing fs faults with
  | done r => exact .now
  | act a ok fail ih1 ih2 =>
    unfold run
    cases hst : step a fs (faults.headD none) with
    | mk fs' o =>
      cases o with
      | none =>
        cases hf : faults.headD none with
        | none => rw [hf] at hst; exact .step hst (ih1 _ _)
        | some x =>
          obtain ⟨e, n⟩ := x
          rw [hf] at hst
          cases a <;> simp [step] at hst
      | some e => exact .fail hst (fun _ => rfl) (ih2 e _ _)

/-- What can be on disk while a file is deleted, and after that. -/
theorem moment_unlink {may : Act → Bool} {p : Path} {ok : Prog} {fail : Err → Prog} {fs m : FS} (h : Moment may (.act (.unlink p) ok fail) fs m) :
    m = fs ∨ ((fs p).isSome = true ∧ Moment may ok (fs.set p none) m) ∨ (fs p = none ∧ Moment may (fail .envError) fs m) ∨
      (may (.unlink p) = true ∧ ∃ e, Moment may (fail e) fs m) := by
  cases h with
  | now => exact Or.inl rfl
  | step hs hm =>
    simp only [step] at hs
    split at hs
    · next hx =>
      cases hs
      exact Or.inr (Or.inl ⟨hx, hm⟩)
    · cases hs
  | @fail _ _ _ _ f fs' e _ hs hmay hm =>
    cases f with
    | none =>
      simp only [step] at hs
      split at hs
      · cases hs
      · next hx =>
        cases hs
        exact Or.inr (Or.inr (Or.inl ⟨by simpa using hx, hm⟩))
    | some x =>
      obtain ⟨e', n⟩ := x
      simp only [step] at hs
      cases hs
      exact Or.inr (Or.inr (Or.inr ⟨hmay (by simp), _, hm⟩))

/-- What can be on disk while a file is renamed, and after that. -/
theorem moment_rename {may : Act → Bool} {p q : Path} {c : Bytes} {ok : Prog} {fail : Err → Prog} {fs m : FS} (hc : fs p = some c)
    (h : Moment may (.act (.rename p q) ok fail) fs m) :
    m = fs ∨ Moment may ok ((fs.set p none).set q (some c)) m ∨ (may (.rename p q) = true ∧ ∃ e, Moment may (fail e) fs m) := by
  cases h with
  | now => exact Or.inl rfl
  | step hs hm =>
    simp only [step, hc] at hs
    cases hs
    exact Or.inr (Or.inl hm)
  | @fail _ _ _ _ f fs' e _ hs hmay hm =>
    cases f with
    | none =>
      simp only [step, hc] at hs
      cases hs
    | some x =>
      obtain ⟨e', n⟩ := x
      simp only [step] at hs
      cases hs
      exact Or.inr (Or.inr ⟨hmay (by simp), _, hm⟩)

/-- While the result is put in place: the file there is the old one, none, or the new one, and nothing else than
these two files changes. -/
theorem moment_move {may : Act → Bool} {src dest : Path} {c : Bytes} {fs m : FS} (hne : src ≠ dest) (hs : fs src = some c)
    (h : Moment may (moveResult src dest) fs m) :
    (m dest = fs dest ∨ m dest = none ∨ m dest = some c) ∧ ∀ q, q ≠ src → q ≠ dest → m q = fs q := by
  unfold moveResult at h
  split at h
  · dsimp only at h
    have put : ∀ fs1 : FS, fs1 src = some c → (fs1 dest = fs dest ∨ fs1 dest = none) → (∀ q, q ≠ src → q ≠ dest → fs1 q = fs q) →
        Moment may (.act (.rename src dest) (.done (.ok ())) fun e => if e = .envError then .act (.unlink src) (raise e) raise else raise e) fs1 m →
        (m dest = fs dest ∨ m dest = none ∨ m dest = some c) ∧ ∀ q, q ≠ src → q ≠ dest → m q = fs q := by
      intro fs1 h1 h2 h3 hm
      have h2' : fs1 dest = fs dest ∨ fs1 dest = none ∨ fs1 dest = some c := by
        rcases h2 with h | h
        · exact Or.inl h
        · exact Or.inr (Or.inl h)
      rcases moment_rename h1 hm with rfl | hm | ⟨_, e, hm⟩
      · exact ⟨h2', h3⟩
      · obtain rfl := moment_done hm
        refine ⟨Or.inr (Or.inr (FS.set_eq _ _ _)), fun q h4 h5 => ?_⟩
        rw [FS.set_ne _ _ h5, FS.set_ne _ _ h4]
        exact h3 q h4 h5
      · split at hm
        · have hset : ∀ q, q ≠ src → (fs1.set src none) q = fs1 q := fun q hq => FS.set_ne _ _ hq
          rcases moment_unlink hm with rfl | ⟨_, hm⟩ | ⟨_, hm⟩ | ⟨_, e, hm⟩
          · exact ⟨h2', h3⟩
          · obtain rfl := moment_done hm
            exact ⟨by rw [hset _ (Ne.symm hne)]; exact h2', fun q h4 h5 => by rw [hset _ h4]; exact h3 q h4 h5⟩
          · obtain rfl := moment_done hm
            exact ⟨h2', h3⟩
          · obtain rfl := moment_done hm
            exact ⟨h2', h3⟩
        · obtain rfl := moment_done hm
          exact ⟨h2', h3⟩
    rcases moment_unlink h with rfl | ⟨_, hm⟩ | ⟨_, hm⟩ | ⟨_, e, hm⟩
    · exact ⟨Or.inl rfl, fun _ _ _ => rfl⟩
    · exact put _ (by rw [FS.set_ne _ _ hne]; exact hs) (Or.inr (FS.set_eq _ _ _)) (fun q _ h5 => FS.set_ne _ _ h5) hm
    · rw [if_pos rfl] at hm
      exact put fs hs (Or.inl rfl) (fun _ _ _ => rfl) hm
    · split at hm
      · exact put fs hs (Or.inl rfl) (fun _ _ _ => rfl) hm
      · obtain rfl := moment_done hm
        exact ⟨Or.inl rfl, fun _ _ _ => rfl⟩
  · obtain rfl := moment_done h
    exact ⟨Or.inl rfl, fun _ _ _ => rfl⟩

/-- Without faults the complete file is at one of the two places until it is in the right one. -/
theorem moment_move_clean {src dest : Path} {c : Bytes} {fs m : FS} (hne : src ≠ dest) (hs : fs src = some c)
    (h : Moment (fun _ => false) (moveResult src dest) fs m) : m src = some c ∨ m dest = some c := by
  unfold moveResult at h
  split at h
  · dsimp only at h
    have put : ∀ fs1 : FS, fs1 src = some c →
        Moment (fun _ => false) (.act (.rename src dest) (.done (.ok ())) fun e => if e = .envError then .act (.unlink src) (raise e) raise else raise e) fs1 m →
        m src = some c ∨ m dest = some c := by
      intro fs1 h1 hm
      rcases moment_rename h1 hm with rfl | hm | ⟨h, _⟩
      · exact Or.inl h1
      · obtain rfl := moment_done hm
        exact Or.inr (FS.set_eq _ _ _)
      · simp at h
    rcases moment_unlink h with rfl | ⟨_, hm⟩ | ⟨_, hm⟩ | ⟨h, _⟩
    · exact Or.inl hs
    · exact put _ (by rw [FS.set_ne _ _ hne]; exact hs) hm
    · rw [if_pos rfl] at hm
      exact put fs hs hm
    · simp at h
  · obtain rfl := moment_done h
    exact Or.inl hs

theorem run_move_ok {src dest : Path} {c : Bytes} {fs : FS} (hp : dest <+: src) (hne : src ≠ dest) (hs : fs src = some c) :
    run (moveResult src dest) fs [] = ((fs.set src none).set dest (some c), .ok ()) := by
  unfold moveResult
  rw [if_pos (List.isPrefixOf_iff_prefix.2 hp)]
  dsimp only
  by_cases hex : (fs dest).isSome
  · simp only [run, List.headD_nil, List.tail_nil, step, hex, if_true, FS.set_ne _ _ hne, hs]
    congr 1
    funext q
    simp only [FS.set]
    split
    · rfl
    · split <;> rfl
  · simp only [Bool.not_eq_true] at hex
    simp [run, step, hex, hs]

/-- Success is only reported when the file was renamed. -/
theorem run_move_sound {src dest : Path} {c : Bytes} {fs fs' : FS} {faults : List Fault} (hne : src ≠ dest) (hs : fs src = some c)
    (h : run (moveResult src dest) fs faults = (fs', .ok ())) : fs' = (fs.set src none).set dest (some c) := by
  unfold moveResult at h
  split at h
  · dsimp only at h
    have put : ∀ (fs1 : FS) (fl : List Fault), fs1 src = some c → (fs1.set src none).set dest (some c) = (fs.set src none).set dest (some c) →
        run (.act (.rename src dest) (.done (.ok ())) fun e => if e = .envError then .act (.unlink src) (raise e) raise else raise e) fs1 fl = (fs', .ok ()) →
        fs' = (fs.set src none).set dest (some c) := by
      intro fs1 fl h1 h2 hr
      unfold run at hr
      cases hf : fl.headD none with
      | none =>
        rw [hf] at hr
        simp only [step, h1, run] at hr
        rw [← h2]
        exact (congrArg Prod.fst hr).symm
      | some x =>
        obtain ⟨e, n⟩ := x
        rw [hf] at hr
        simp only [step] at hr
        split at hr
        · unfold run at hr
          split at hr <;> simp [raise, run] at hr
        · simp [raise, run] at hr
    unfold run at h
    cases hf : faults.headD none with
    | none =>
      rw [hf] at h
      by_cases hex : (fs dest).isSome
      · simp only [step, hex, if_true] at h
        refine put _ _ (by rw [FS.set_ne _ _ hne]; exact hs) ?_ h
        funext q
        simp only [FS.set]
        split
        · rfl
        · split <;> rfl
      · simp only [step, hex, if_false, if_true] at h
        exact put fs _ hs rfl h
    | some x =>
      obtain ⟨e, n⟩ := x
      rw [hf] at h
      simp only [step] at h
      split at h
      · exact put fs _ hs rfl h
      · simp [raise, run] at h
  · simp [raise, run] at h

end Rescene
