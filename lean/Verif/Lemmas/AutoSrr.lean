import Verif.Model.AutoSrr
import Verif.Lemmas.SrrCommand
/-
Programs that stay within a set of files, and what the edits of an SRR leave when they succeed.
-/
namespace Rescene
open Spec

/-! ### Programs that only touch some files -/

/-- The access is to these files, or only reads. -/
def Act.within (S : Path → Prop) : Act → Prop
  | .read _ => True
  | .create q => S q
  | .write q _ => S q
  | .close _ => True
  | .unlink q => S q
  | .rename p q => S p ∧ S q

/-- All accesses are to these files, or only read. -/
def OnlyIn (S : Path → Prop) : Prog → Prop
  | .done _ => True
  | .act a ok fail => a.within S ∧ OnlyIn S ok ∧ ∀ e, OnlyIn S (fail e)

theorem onlyIn_mono {S T : Path → Prop} (h : ∀ q, S q → T q) {c : Prog} (hc : OnlyIn S c) : OnlyIn T c := by
  induction c with
  | done r => trivial
  | act a ok fail ih1 ih2 =>
    refine ⟨?_, ih1 hc.2.1, fun e => ih2 e (hc.2.2 e)⟩
    have := hc.1
    cases a with
    | read _ => trivial
    | close _ => trivial
    | create _ => exact h _ this
    | write _ _ => exact h _ this
    | unlink _ => exact h _ this
    | rename _ _ => exact ⟨h _ this.1, h _ this.2⟩

theorem onlyIn_of_at {p : Path} {c : Prog} (h : OnlyAt p c) : OnlyIn (fun q => q = p) c := by
  induction c with
  | done r => trivial
  | act a ok fail ih1 ih2 =>
    refine ⟨?_, ih1 h.2.1, fun e => ih2 e (h.2.2 e)⟩
    have := h.1
    cases a with
    | read _ => trivial
    | close _ => trivial
    | create _ => exact this
    | write _ _ => exact this
    | unlink _ => exact this
    | rename _ _ => exact this.elim

theorem onlyIn_andThen {S : Path → Prop} {c : Prog} {k : Res Unit → Prog} (hc : OnlyIn S c) (hk : ∀ r, OnlyIn S (k r)) :
    OnlyIn S (c.andThen k) := by
  induction c with
  | done r => exact hk r
  | act a ok fail ih1 ih2 => exact ⟨hc.1, ih1 hc.2.1, fun e => ih2 e (hc.2.2 e)⟩

theorem ne_of_within {S : Path → Prop} {p q : Path} (hp : S p) (hq : ¬ S q) : q ≠ p := fun h => hq (h ▸ hp)

theorem step_in {S : Path → Prop} {a : Act} (h : a.within S) (fs : FS) (f : Fault) {q : Path} (hq : ¬ S q) : (step a fs f).1 q = fs q := by
  cases f with
  | some x =>
    obtain ⟨e, n⟩ := x
    cases a with
    | write r b => simp [step, appendTo, FS.set, ne_of_within h hq]
    | read _ => rfl
    | create _ => rfl
    | close _ => rfl
    | unlink _ => rfl
    | rename _ _ => rfl
  | none =>
    cases a with
    | write r b => simp [step, appendTo, FS.set, ne_of_within h hq]
    | read _ => rfl
    | create r => simp [step, FS.set, ne_of_within h hq]
    | close _ => rfl
    | unlink r =>
      simp only [step]
      split <;> simp [FS.set, ne_of_within h hq]
    | rename r s =>
      simp only [step]
      split <;> simp [FS.set, ne_of_within h.1 hq, ne_of_within h.2 hq]

theorem run_in {S : Path → Prop} {c : Prog} (h : OnlyIn S c) (fs : FS) (faults : List Fault) {q : Path} (hq : ¬ S q) :
    (run c fs faults).1 q = fs q := by
  induction c generalizing fs faults with
  | done r => rfl
  | act a ok fail ih1 ih2 =>
    unfold run
    have hs := step_in h.1 fs (faults.headD none) hq
    cases hst : step a fs (faults.headD none) with
    | mk fs' o =>
      rw [hst] at hs
      cases o with
      | none => rw [← hs]; exact ih1 h.2.1 fs' faults.tail
      | some e => rw [← hs]; exact ih2 e (h.2.2 e) fs' faults.tail

theorem moment_in {S : Path → Prop} {may : Act → Bool} {c : Prog} (h : OnlyIn S c) {fs m : FS} (hm : Moment may c fs m) {q : Path}
    (hq : ¬ S q) : m q = fs q := by
  induction hm with
  | now => rfl
  | writing =>
    obtain ⟨h1, _, _⟩ := h
    simp [appendTo, FS.set, ne_of_within h1 hq]
  | @step a ok fail fs fs' m hs _ ih =>
    have := step_in h.1 fs none hq
    rw [hs] at this
    exact (ih h.2.1).trans this
  | @fail a ok fail fs f fs' e m hs _ _ ih =>
    have := step_in h.1 fs f hq
    rw [hs] at this
    exact (ih (h.2.2 e)).trans this

theorem writeChunks_in {S : Path → Prop} {src p : Path} {cs : List (Res Bytes)} {k : Prog} {h : Err → Prog} (hp : S p) (hk : OnlyIn S k)
    (hh : ∀ e, OnlyIn S (h e)) : OnlyIn S (writeChunks src p cs k h) := by
  induction cs with
  | nil => exact hk
  | cons x t ih =>
    cases x with
    | error e => exact hh e
    | ok b => exact ⟨trivial, ⟨hp, ih, hh⟩, hh⟩

theorem raise_in (S : Path → Prop) (e : Err) : OnlyIn S (raise e) := trivial

theorem moveResult_in {S : Path → Prop} {src dest : Path} (h1 : S src) (h2 : S dest) : OnlyIn S (moveResult src dest) := by
  have put : OnlyIn S (.act (.rename src dest) (.done (.ok ()))
      fun e => if e = .envError then .act (.unlink src) (raise e) raise else raise e) := by
    refine ⟨⟨h1, h2⟩, trivial, fun e => ?_⟩
    dsimp only
    split
    · exact ⟨h1, trivial, fun _ => trivial⟩
    · trivial
  unfold moveResult
  split
  · refine ⟨h2, put, fun e => ?_⟩
    dsimp only
    split
    · exact put
    · trivial
  · trivial

theorem replaceSrr_in {S : Path → Prop} {srr tmp : Path} {h : Err → Prog} (h1 : S srr) (h2 : S tmp) (hh : ∀ e, OnlyIn S (h e)) :
    OnlyIn S (replaceSrr srr tmp h) :=
  ⟨trivial, ⟨h1, ⟨⟨h2, h1⟩, trivial, hh⟩, hh⟩, hh⟩

theorem addProg_in {S : Path → Prop} {srr tmp : Path} (h1 : S srr) (h2 : S tmp) (data : Bytes) (sf : List Str) (news : List NewFile) :
    OnlyIn S (addProg srr tmp data sf news) := by
  refine ⟨trivial, ?_, fun _ => trivial⟩
  cases readSrr data with
  | error e => trivial
  | ok blocks =>
    dsimp only
    cases dupeCheck sf blocks with
    | error e => trivial
    | ok u =>
      exact ⟨h2, writeChunks_in h2 (replaceSrr_in h1 h2 fun _ => trivial)
        (fun _ => ⟨trivial, ⟨h2, trivial, fun _ => trivial⟩, fun _ => trivial⟩), fun _ => trivial⟩

theorem removeProg_in {S : Path → Prop} {srr tmp : Path} (h1 : S srr) (h2 : S tmp) (data : Bytes) (names : List Str) :
    OnlyIn S (removeProg srr tmp data names) := by
  refine ⟨trivial, ?_, fun _ => trivial⟩
  cases openReader data with
  | error e => trivial
  | ok mode =>
    dsimp only
    split
    · trivial
    · refine ⟨h2, ⟨trivial, ?_, fun _ => ⟨h2, trivial, fun _ => trivial⟩⟩, fun _ => trivial⟩
      cases readAll data with
      | error e => exact ⟨h2, trivial, fun _ => trivial⟩
      | ok blocks =>
        exact writeChunks_in h2 (replaceSrr_in h1 h2 fun _ => ⟨h2, trivial, fun _ => trivial⟩) fun _ => ⟨h2, trivial, fun _ => trivial⟩

/-! ### Success -/

/-- A program that never reports success. -/
def Fails (c : Prog) : Prop := ∀ fs faults, (run c fs faults).2 ≠ .ok ()

theorem fails_raise (e : Err) : Fails (raise e) := fun _ _ h => by cases h

theorem fails_act {a : Act} {ok : Prog} {fail : Err → Prog} (h1 : Fails ok) (h2 : ∀ e, Fails (fail e)) : Fails (.act a ok fail) := by
  intro fs faults
  unfold run
  split
  · exact h1 _ _
  · exact h2 _ _ _

theorem run_replace_sound {srr tmp : Path} {h : Err → Prog} {w : Bytes} {fs fs' : FS} {faults : List Fault} (hne : srr ≠ tmp)
    (ht : fs tmp = some w) (hh : ∀ e, Fails (h e)) (hr : run (replaceSrr srr tmp h) fs faults = (fs', .ok ())) :
    fs' = (fs.set tmp none).set srr (some w) := by
  have no : ∀ e fs1 fl, run (h e) fs1 fl ≠ (fs', .ok ()) := fun e fs1 fl hx => hh e fs1 fl (congrArg Prod.snd hx)
  unfold replaceSrr at hr
  unfold run at hr
  rw [step_close] at hr
  cases hf : faults.headD none with
  | some x => rw [hf] at hr; exact absurd hr (no _ _ _)
  | none =>
    rw [hf] at hr
    simp only [Option.map_none] at hr
    unfold run at hr
    cases hf2 : faults.tail.headD none with
    | some x =>
      obtain ⟨e, n⟩ := x
      rw [hf2] at hr
      simp only [step] at hr
      exact absurd hr (no _ _ _)
    | none =>
      rw [hf2] at hr
      by_cases hex : (fs srr).isSome
      · simp only [step, hex, if_true] at hr
        unfold run at hr
        cases hf3 : faults.tail.tail.headD none with
        | some x =>
          obtain ⟨e, n⟩ := x
          rw [hf3] at hr
          simp only [step] at hr
          exact absurd hr (no _ _ _)
        | none =>
          rw [hf3] at hr
          simp only [step, FS.set_ne _ _ (Ne.symm hne), ht, run] at hr
          rw [← (Prod.mk.inj hr).1]
          funext q
          simp only [FS.set]
          split
          · rfl
          · split <;> rfl
      · simp only [step, hex] at hr
        exact absurd hr (no _ _ _)

theorem run_write_sound {srr tmp : Path} {cs : List (Res Bytes)} {h h' : Err → Prog} {fs fs' : FS} {faults : List Fault} (hne : srr ≠ tmp)
    (hh : ∀ e, Fails (h e)) (hh' : ∀ e, Fails (h' e))
    (hr : run (writeChunks srr tmp cs (replaceSrr srr tmp h) h') (fs.set tmp (some [])) faults = (fs', .ok ())) :
    ∃ w, chunksVal cs = .ok w ∧ fs' = (fs.set tmp none).set srr (some w) := by
  have key := run_writeChunks_faults (may := fun _ => true) (src := srr) (p := tmp) (cs := cs) (k := replaceSrr srr tmp h) (h := h')
    (fs0 := fs) (c := []) (faults := faults)
    (P := fun x => x.2 = .ok () → ∃ w, chunksVal cs = .ok w ∧ x.1 = (fs.set tmp none).set srr (some w))
    (fun w fl hw _ hx => ⟨w, hw, by
      have := run_replace_sound (fs' := (run (replaceSrr srr tmp h) (fs.set tmp (some ([] ++ w))) fl).1) hne (FS.set_eq fs tmp _) hh
        (Prod.ext rfl hx)
      rw [this, FS.set_set, List.nil_append]⟩)
    (fun e w fl _ hx => absurd hx (hh' e _ _)) (faultsIn_all _ _ _)
  rw [hr] at key
  exact key rfl

/-- When `add_stored_files` succeeds, whatever it met, the new SRR is complete and the temporary file is gone. -/
theorem run_add_sound {srr tmp : Path} {data : Bytes} {sf : List Str} {news : List NewFile} {fs fs' : FS} {faults : List Fault} (hne : srr ≠ tmp)
    (h : run (addProg srr tmp data sf news) fs faults = (fs', .ok ())) :
    ∃ blocks w, readSrr data = .ok blocks ∧ chunksVal (addChunks data news false blocks) = .ok w ∧ fs' = (fs.set tmp none).set srr (some w) := by
  unfold addProg at h
  dsimp only at h
  unfold run at h
  rw [step_read] at h
  cases hf : faults.headD none with
  | some x => rw [hf] at h; simp [run] at h
  | none =>
    rw [hf] at h
    simp only [Option.map_none] at h
    cases hb : readSrr data with
    | error e => rw [hb] at h; simp [run] at h
    | ok blocks =>
      rw [hb] at h
      dsimp only at h
      cases hd : dupeCheck sf blocks with
      | error e => rw [hd] at h; simp [run] at h
      | ok u =>
        rw [hd] at h
        dsimp only at h
        unfold run at h
        cases hf2 : faults.tail.headD none with
        | some x =>
          obtain ⟨e, n⟩ := x
          rw [hf2] at h
          simp [step, run] at h
        | none =>
          rw [hf2] at h
          simp only [step] at h
          obtain ⟨w, h1, h2⟩ := run_write_sound hne (fun e => fails_raise e)
            (fun e => fails_act (fails_act (fails_raise e) fun e => fails_raise e) fun e => fails_raise e) h
          exact ⟨blocks, w, rfl, h1, h2⟩

/-- The same for `remove_stored_files`. -/
theorem run_remove_sound {srr tmp : Path} {data : Bytes} {names : List Str} {fs fs' : FS} {faults : List Fault} (hne : srr ≠ tmp)
    (h : run (removeProg srr tmp data names) fs faults = (fs', .ok ())) :
    ∃ w, leftBytes data names = .ok w ∧ fs' = (fs.set tmp none).set srr (some w) := by
  unfold removeProg at h
  dsimp only at h
  unfold run at h
  rw [step_read] at h
  cases hf : faults.headD none with
  | some x => rw [hf] at h; simp [run] at h
  | none =>
    rw [hf] at h
    simp only [Option.map_none] at h
    cases ho : openReader data with
    | error e => rw [ho] at h; simp [run] at h
    | ok mode =>
      rw [ho] at h
      dsimp only at h
      split at h
      · simp [run] at h
      · unfold run at h
        cases hf2 : faults.tail.headD none with
        | some x =>
          obtain ⟨e, n⟩ := x
          rw [hf2] at h
          simp [step, run] at h
        | none =>
          rw [hf2] at h
          simp only [step] at h
          have cl : ∀ e, Fails (.act (.unlink tmp) (raise e) raise) := fun e => fails_act (fails_raise e) fun e => fails_raise e
          unfold run at h
          rw [step_read] at h
          cases hf3 : faults.tail.tail.headD none with
          | some x =>
            rw [hf3] at h
            exact absurd (congrArg Prod.snd h) (cl _ _ _)
          | none =>
            rw [hf3] at h
            simp only [Option.map_none] at h
            cases hb : readAll data with
            | error e =>
              rw [hb] at h
              exact absurd (congrArg Prod.snd h) (cl _ _ _)
            | ok blocks =>
              rw [hb] at h
              obtain ⟨w, h1, h2⟩ := run_write_sound hne cl cl h
              refine ⟨w, ?_, h2⟩
              unfold leftBytes
              rw [hb]
              exact h1

/-! ### `generate_srr` -/

/-- What `generate_srr` puts in the place of the SRR. -/
def autoResult (lower upper : Str → Str) (j : AutoJob) (made : Bytes) : Res Bytes := do
  let i ← info lower upper made
  let left ← leftBytes made (i.stored.map (·.1))
  let blocks ← readSrr left
  chunksVal (addChunks left j.news false blocks)

/-- The files of the job: the temporary files, and those `work` may touch. -/
def AutoJob.own (j : AutoJob) (W : Path → Prop) (q : Path) : Prop := q = j.tmp ∨ q = j.tmpRemove ∨ q = j.tmpAdd ∨ W q

/-- What the program needs to be right: the names differ, `work` touches only `W`, `create` only the temporary file, and
when `create` succeeds it has written `made`. -/
structure AutoOk (j : AutoJob) (W : Path → Prop) (create : Prog) (made : Res Bytes) (fs : FS) : Prop where
  srrTmp : j.tmp ≠ j.srr
  srrRemove : j.tmpRemove ≠ j.srr
  srrAdd : j.tmpAdd ≠ j.srr
  tmpRemove : j.tmp ≠ j.tmpRemove
  tmpAdd : j.tmp ≠ j.tmpAdd
  work : OnlyIn W j.work
  srrWork : ¬ W j.srr
  tmpWork : ¬ W j.tmp
  createAt : OnlyAt j.tmp create
  createOk : j.allowed = true → ∀ faults fs', run create fs faults = (fs', .ok ()) → ∃ d, made = .ok d ∧ fs' = fs.set j.tmp (some d)

theorem AutoOk.notOwn {j : AutoJob} {W : Path → Prop} {create : Prog} {made : Res Bytes} {fs : FS} (h : AutoOk j W create made fs) : ¬ j.own W j.srr := by
  rintro (h1 | h1 | h1 | h1)
  · exact h.srrTmp h1.symm
  · exact h.srrRemove h1.symm
  · exact h.srrAdd h1.symm
  · exact h.srrWork h1

theorem autoFailed_in {S : Path → Prop} {tmp : Path} (h : S tmp) (e : Err) : OnlyIn S (autoFailed tmp e) := by
  cases e <;> first | exact ⟨h, trivial, fun _ => trivial⟩ | exact trivial

theorem autoAdd_in {S : Path → Prop} {j : AutoJob} (h1 : S j.tmp) (h2 : S j.tmpAdd) (h3 : S j.srr) (left : Bytes) : OnlyIn S (autoAdd j left) := by
  refine onlyIn_andThen (addProg_in h1 h2 _ _ _) fun r => ?_
  cases r with
  | ok _ => exact moveResult_in h1 h3
  | error e => trivial

theorem autoWork_in {S : Path → Prop} {j : AutoJob} (h1 : S j.tmp) (h2 : S j.tmpAdd) (h3 : S j.srr) (h4 : OnlyIn S j.work) (left : Bytes) :
    OnlyIn S (autoWork j left) := by
  refine onlyIn_andThen h4 fun r => ?_
  cases r with
  | ok _ =>
    dsimp only
    split
    · exact ⟨h1, trivial, fun _ => trivial⟩
    · exact autoAdd_in h1 h2 h3 left
  | error e => trivial

theorem autoEdits_in {S : Path → Prop} {lower upper : Str → Str} {j : AutoJob} (h1 : S j.tmp) (h2 : S j.tmpAdd) (h3 : S j.srr) (h4 : OnlyIn S j.work)
    (h5 : S j.tmpRemove) (made : Bytes) : OnlyIn S (autoEdits lower upper j made) := by
  refine ⟨trivial, ?_, fun _ => trivial⟩
  cases info lower upper made with
  | error e => trivial
  | ok i =>
    refine onlyIn_andThen (removeProg_in h1 h5 _ _) fun r => ?_
    cases r with
    | error e => trivial
    | ok _ =>
      dsimp only
      cases leftBytes made (i.stored.map (·.1)) with
      | error e => trivial
      | ok left => exact autoWork_in h1 h2 h3 h4 left

/-- `generate_srr` touches the SRR, the files of the job, and no other. -/
theorem autoSrr_in {lower upper : Str → Str} {j : AutoJob} {W : Path → Prop} {create : Prog} {made : Res Bytes} {fs : FS} (h : AutoOk j W create made fs)
    (there : Bool) : OnlyIn (fun q => q = j.srr ∨ j.own W q) (autoSrr lower upper j there create made) := by
  unfold autoSrr
  split
  · trivial
  · refine onlyIn_andThen (onlyIn_mono (fun q hq => Or.inr (Or.inl hq)) (onlyIn_of_at h.createAt)) fun r => ?_
    cases r with
    | error e => exact autoFailed_in (Or.inr (Or.inl rfl)) e
    | ok _ =>
      dsimp only
      split
      · cases made with
        | error e => trivial
        | ok d =>
          exact autoEdits_in (S := fun q => q = j.srr ∨ j.own W q) (Or.inr (Or.inl rfl)) (Or.inr (Or.inr (Or.inr (Or.inl rfl)))) (Or.inl rfl)
            (onlyIn_mono (fun q hq => Or.inr (Or.inr (Or.inr (Or.inr hq)))) h.work) (Or.inr (Or.inr (Or.inl rfl))) d
      · trivial

/-- The moments before the SRR is put in its place, and those while that is done. -/
theorem autoSrr_moment {lower upper : Str → Str} {j : AutoJob} {W : Path → Prop} {create : Prog} {made : Res Bytes} {fs m : FS} {may : Act → Bool}
    {there : Bool} (h : AutoOk j W create made fs) (hm : Moment may (autoSrr lower upper j there create made) fs m) :
    m j.srr = fs j.srr ∨ ∃ fs1 d c, made = .ok d ∧ autoResult lower upper j d = .ok c ∧ fs1 j.srr = fs j.srr ∧ fs1 j.tmp = some c ∧
      Moment may (moveResult j.tmp j.srr) fs1 m := by
  have ns := h.notOwn
  unfold autoSrr at hm
  split at hm
  · exact Or.inl (by rw [moment_done hm])
  · rcases moment_andThen hm with hm | ⟨faults, fs1, r, hr, _, hm⟩
    · exact Or.inl (moment_at h.createAt hm (Ne.symm h.srrTmp))
    have e1 : fs1 j.srr = fs j.srr := by
      have := run_at h.createAt fs faults (Ne.symm h.srrTmp)
      rwa [hr] at this
    cases r with
    | error e => exact Or.inl ((moment_in (autoFailed_in (S := j.own W) (Or.inl rfl) e) hm ns).trans e1)
    | ok u =>
      dsimp only at hm
      split at hm
      · next ha =>
        obtain ⟨d, hd, _⟩ := h.createOk ha faults fs1 hr
        rw [hd] at hm
        dsimp only at hm
        unfold autoEdits at hm
        cases hm with
        | now => exact Or.inl e1
        | @fail _ _ _ _ f fs2 e _ hst _ hm =>
          rw [step_read] at hst
          rw [moment_done hm, ← (Prod.mk.inj hst).1]
          exact Or.inl e1
        | @step _ _ _ _ fs2 _ hst hm =>
          rw [step_read] at hst
          obtain rfl := (Prod.mk.inj hst).1
          cases hi : info lower upper d with
          | error e => rw [hi] at hm; rw [moment_done hm]; exact Or.inl e1
          | ok i =>
            rw [hi] at hm
            dsimp only at hm
            have rin := removeProg_in (S := j.own W) (Or.inl rfl) (Or.inr (Or.inl rfl)) d (i.stored.map (·.1))
            rcases moment_andThen hm with hm | ⟨faults2, fs3, r, hr2, _, hm⟩
            · exact Or.inl ((moment_in rin hm ns).trans e1)
            have e3 : fs3 j.srr = fs j.srr := by
              have := run_in rin fs1 faults2 ns
              rw [hr2] at this
              exact this.trans e1
            cases r with
            | error e => rw [moment_done hm]; exact Or.inl e3
            | ok u2 =>
              dsimp only at hm
              cases hl : leftBytes d (i.stored.map (·.1)) with
              | error e => rw [hl] at hm; rw [moment_done hm]; exact Or.inl e3
              | ok left =>
                rw [hl] at hm
                dsimp only at hm
                unfold autoWork at hm
                have win : OnlyIn (j.own W) j.work := onlyIn_mono (fun q hq => Or.inr (Or.inr (Or.inr hq))) h.work
                rcases moment_andThen hm with hm | ⟨faults3, fs4, r, hr3, _, hm⟩
                · exact Or.inl ((moment_in win hm ns).trans e3)
                have e4 : fs4 j.srr = fs j.srr := by
                  have := run_in win fs3 faults3 ns
                  rw [hr3] at this
                  exact this.trans e3
                cases r with
                | error e => rw [moment_done hm]; exact Or.inl e4
                | ok u3 =>
                  dsimp only at hm
                  split at hm
                  · have : OnlyIn (j.own W) (.act (.unlink j.tmp) (raise .other) raise) := ⟨Or.inl rfl, trivial, fun _ => trivial⟩
                    exact Or.inl ((moment_in this hm ns).trans e4)
                  · unfold autoAdd at hm
                    have ain := addProg_in (S := j.own W) (Or.inl rfl) (Or.inr (Or.inr (Or.inl rfl))) left j.storeFiles j.news
                    rcases moment_andThen hm with hm | ⟨faults4, fs5, r, hr4, _, hm⟩
                    · exact Or.inl ((moment_in ain hm ns).trans e4)
                    have e5 : fs5 j.srr = fs j.srr := by
                      have := run_in ain fs4 faults4 ns
                      rw [hr4] at this
                      exact this.trans e4
                    cases r with
                    | error e => rw [moment_done hm]; exact Or.inl e5
                    | ok u4 =>
                      obtain ⟨blocks, c, b1, b2, rfl⟩ := run_add_sound h.tmpAdd hr4
                      refine Or.inr ⟨_, d, c, hd, ?_, e5, FS.set_eq _ _ _, hm⟩
                      unfold autoResult
                      simp only [hi, ok_bind, hl, b1, b2]
      · rw [moment_done hm]; exact Or.inl e1

theorem run_andThen_faults {may : Act → Bool} {p : Prog} {k : Res Unit → Prog} {fs : FS} {faults : List Fault} {x : FS × Res Unit}
    (hf : FaultsIn may (p.andThen k) fs faults) (h : run (p.andThen k) fs faults = x) :
    ∃ fs1 r rest, run p fs faults = (fs1, r) ∧ FaultsIn may (k r) fs1 rest ∧ run (k r) fs1 rest = x := by
  induction p generalizing fs faults with
  | done r => exact ⟨fs, r, faults, rfl, hf, h⟩
  | act a ok fail ih1 ih2 =>
    unfold Prog.andThen at h hf
    unfold run at h
    unfold FaultsIn at hf
    obtain ⟨_, hf⟩ := hf
    cases hst : step a fs (faults.headD none) with
    | mk fs' o =>
      rw [hst] at h hf
      cases o with
      | none =>
        obtain ⟨fs1, r, rest, h1, h2⟩ := ih1 hf h
        exact ⟨fs1, r, rest, by unfold run; rw [hst]; exact h1, h2⟩
      | some e =>
        obtain ⟨fs1, r, rest, h1, h2⟩ := ih2 e hf h
        exact ⟨fs1, r, rest, by unfold run; rw [hst]; exact h1, h2⟩

/-- When a failing rename is not among the faults, the file in the place is still there after an error. -/
theorem run_move_failed {may : Act → Bool} {src dest : Path} {c : Bytes} {fs fs' : FS} {faults : List Fault} {e : Err} (hne : src ≠ dest)
    (hmay : may (.rename src dest) = false) (hs : fs src = some c) (hf : FaultsIn may (moveResult src dest) fs faults)
    (h : run (moveResult src dest) fs faults = (fs', .error e)) : fs' dest = fs dest := by
  unfold moveResult at h hf
  split at h
  · next hp =>
    rw [if_pos hp] at hf
    dsimp only at h hf
    have put : ∀ (fs1 : FS) (fl : List Fault), fs1 src = some c →
        FaultsIn may (.act (.rename src dest) (.done (.ok ())) fun e => if e = .envError then .act (.unlink src) (raise e) raise else raise e) fs1 fl →
        run (.act (.rename src dest) (.done (.ok ())) fun e => if e = .envError then .act (.unlink src) (raise e) raise else raise e) fs1 fl = (fs', .error e) →
        False := by
      intro fs1 fl h1 hf hr
      unfold FaultsIn at hf
      unfold run at hr
      cases hfl : fl.headD none with
      | none =>
        rw [hfl] at hr
        simp [step, h1, run] at hr
      | some x =>
        have := hf.1 (by rw [hfl]; simp)
        rw [hmay] at this
        cases this
    unfold FaultsIn at hf
    unfold run at h
    cases hfl : faults.headD none with
    | none =>
      rw [hfl] at h hf
      by_cases hex : (fs dest).isSome
      · simp only [step, hex, if_true] at h hf
        exact (put _ _ (by rw [FS.set_ne _ _ hne]; exact hs) hf.2 h).elim
      · simp only [step, hex, if_false, if_true] at h hf
        exact (put fs _ hs hf.2 h).elim
    | some x =>
      obtain ⟨e, n⟩ := x
      rw [hfl] at h hf
      simp only [step] at h hf
      split at h
      · next he =>
        rw [if_pos he] at hf
        exact (put fs _ hs hf.2 h).elim
      · simp only [raise, run, Prod.mk.injEq] at h
        rw [h.1]
  · simp only [raise, run, Prod.mk.injEq] at h
    rw [h.1]

/-- How the program ends: the SRR is as it was, or the new one was moved to its place. -/
theorem autoSrr_end {lower upper : Str → Str} {j : AutoJob} {W : Path → Prop} {create : Prog} {made : Res Bytes} {fs fs' : FS} {faults : List Fault}
    {may : Act → Bool} {r : Res Unit} {there : Bool} (h : AutoOk j W create made fs)
    (hf : FaultsIn may (autoSrr lower upper j there create made) fs faults)
    (hr : run (autoSrr lower upper j there create made) fs faults = (fs', r)) :
    (fs' j.srr = fs j.srr ∧ (r = .ok () → j.skip = true ∧ there = true ∧ fs' = fs)) ∨
      ∃ fs1 fl d c, made = .ok d ∧ autoResult lower upper j d = .ok c ∧ fs1 j.srr = fs j.srr ∧ fs1 j.tmp = some c ∧
        FaultsIn may (moveResult j.tmp j.srr) fs1 fl ∧ run (moveResult j.tmp j.srr) fs1 fl = (fs', r) := by
  have ns := h.notOwn
  have bad : ∀ (p : Prog) (fs1 : FS) (fl : List Fault), Fails p → OnlyIn (j.own W) p → fs1 j.srr = fs j.srr → run p fs1 fl = (fs', r) →
      fs' j.srr = fs j.srr ∧ (r = .ok () → j.skip = true ∧ there = true ∧ fs' = fs) := by
    intro p fs1 fl h1 h2 h3 h4
    refine ⟨?_, fun hx => ?_⟩
    · have := run_in h2 fs1 fl ns
      rw [h4] at this
      exact this.trans h3
    · exact absurd (by rw [h4]; exact hx) (h1 fs1 fl)
  unfold autoSrr at hr hf
  by_cases hs : (j.skip && there) = true
  · rw [if_pos hs] at hr
    simp only [Bool.and_eq_true] at hs
    simp only [run, Prod.mk.injEq] at hr
    exact Or.inl ⟨by rw [hr.1], fun _ => ⟨hs.1, hs.2, hr.1.symm⟩⟩
  rw [if_neg hs] at hr hf
  obtain ⟨fs1, r1, fl1, hr1, hf, hr⟩ := run_andThen_faults hf hr
  have e1 : fs1 j.srr = fs j.srr := by
    have := run_at h.createAt fs faults (Ne.symm h.srrTmp)
    rwa [hr1] at this
  cases r1 with
  | error e =>
    have : Fails (autoFailed j.tmp e) := by
      cases e <;> first | exact fails_act (fails_raise _) (fun _ => fails_raise _) | exact fails_raise _
    exact Or.inl (bad _ _ _ this (autoFailed_in (Or.inl rfl) e) e1 hr)
  | ok u =>
    dsimp only at hr hf
    by_cases ha : j.allowed = true
    · rw [if_pos ha] at hr hf
      obtain ⟨d, hd, _⟩ := h.createOk ha faults fs1 hr1
      rw [hd] at hr hf
      dsimp only at hr hf
      unfold autoEdits at hr hf
      unfold run at hr
      unfold FaultsIn at hf
      obtain ⟨_, hf⟩ := hf
      rw [step_read] at hr hf
      cases hfl : fl1.headD none with
      | some x => rw [hfl] at hr; exact Or.inl (bad _ _ _ (fails_raise _) trivial e1 hr)
      | none =>
        rw [hfl] at hr hf
        simp only [Option.map_none] at hr hf
        cases hi : info lower upper d with
        | error e => rw [hi] at hr; exact Or.inl (bad _ _ _ (fails_raise _) trivial e1 hr)
        | ok i =>
          rw [hi] at hr hf
          dsimp only at hr hf
          obtain ⟨fs2, r2, fl2, hr2, hf, hr⟩ := run_andThen_faults hf hr
          have e2 : fs2 j.srr = fs j.srr := by
            have := run_in (removeProg_in (S := j.own W) (Or.inl rfl) (Or.inr (Or.inl rfl)) d (i.stored.map (·.1))) fs1 fl1.tail ns
            rw [hr2] at this
            exact this.trans e1
          cases r2 with
          | error e => exact Or.inl (bad _ _ _ (fails_raise _) trivial e2 hr)
          | ok u =>
            obtain ⟨left, hl, _⟩ := run_remove_sound h.tmpRemove hr2
            simp only [hl] at hr hf
            unfold autoWork at hr hf
            obtain ⟨fs3, r3, fl3, hr3, hf, hr⟩ := run_andThen_faults hf hr
            have e3 : fs3 j.srr = fs j.srr := by
              have := run_in h.work fs2 fl2 h.srrWork
              rw [hr3] at this
              exact this.trans e2
            cases r3 with
            | error e => exact Or.inl (bad _ _ _ (fails_raise _) trivial e3 hr)
            | ok u =>
              dsimp only at hr hf
              by_cases hn : j.noFpcalc = true
              · rw [if_pos hn] at hr
                exact Or.inl (bad (.act (.unlink j.tmp) (raise .other) raise) _ _ (fails_act (fails_raise _) fun _ => fails_raise _) ⟨Or.inl rfl, trivial, fun _ => trivial⟩ e3 hr)
              · rw [if_neg hn] at hr hf
                unfold autoAdd at hr hf
                obtain ⟨fs4, r4, fl4, hr4, hf, hr⟩ := run_andThen_faults hf hr
                have e4 : fs4 j.srr = fs j.srr := by
                  have := run_in (addProg_in (S := j.own W) (Or.inl rfl) (Or.inr (Or.inr (Or.inl rfl))) left j.storeFiles j.news) fs3 fl3 ns
                  rw [hr4] at this
                  exact this.trans e3
                cases r4 with
                | error e => exact Or.inl (bad _ _ _ (fails_raise _) trivial e4 hr)
                | ok u =>
                  obtain ⟨blocks, c, b1, b2, rfl⟩ := run_add_sound h.tmpAdd hr4
                  refine Or.inr ⟨_, fl4, d, c, hd, ?_, e4, FS.set_eq _ _ _, hf, hr⟩
                  unfold autoResult
                  simp only [hi, ok_bind, hl, b1, b2]
    · rw [if_neg ha] at hr
      exact Or.inl (bad _ _ _ (fails_raise _) trivial e1 hr)

end Rescene
