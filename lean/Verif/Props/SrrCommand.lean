import Verif.Lemmas.SrrCommand
import Verif.Props.CreateFiles
/-
C74: creating an SRR with the command `srr`.
-/
namespace Rescene.Props
open Rescene Spec

/-- The command: the SRR goes to `srr`, and is first written to `tmp`. -/
def CreateArgs.command (a : CreateArgs) (w : World) (fuel : Nat) (fs : FS) (srr tmp src : Path) (allowed : Bool) : Prog :=
  srrCreate srr tmp allowed (a.prog w fuel fs tmp src allowed)

/-- C74: without leave to overwrite nothing happens: no file is touched, whatever fails. -/
theorem srr_declined (a : CreateArgs) (w : World) (fuel : Nat) (fs : FS) {srr tmp : Path} (src : Path) (hp : srr <+: tmp) :
    (∀ faults, run (a.command w fuel fs srr tmp src false) fs faults = (fs, .ok ())) ∧
    (∀ may m, Moment may (a.command w fuel fs srr tmp src false) fs m → m = fs) := by
  have h : a.command w fuel fs srr tmp src false = .done (.ok ()) := by
    unfold CreateArgs.command srrCreate CreateArgs.prog createProg
    simp [Prog.andThen, thenMove, thenExit, List.isPrefixOf_iff_prefix.2 hp]
  rw [h]
  exact ⟨fun _ => rfl, fun _ _ hm => moment_done hm⟩

theorem ask_iff {lower : Str → Str} {l : List Str} {b : Bool} : askOverwrite lower l = .ok b ↔
    ∃ pre a post, l = pre ++ a :: post ∧ (∀ x ∈ pre, lower x ≠ str "y" ∧ lower x ≠ str "n") ∧
      lower a = (if b then str "y" else str "n") := by
  have hyn : str "y" ≠ str "n" := by decide
  induction l with
  | nil => simp [askOverwrite]
  | cons x l ih =>
    unfold askOverwrite
    by_cases hy : lower x = str "y"
    · rw [if_pos hy]
      constructor
      · intro h
        cases h
        exact ⟨[], x, l, rfl, by simp, hy⟩
      · rintro ⟨pre, a, post, h1, h2, h3⟩
        cases pre with
        | nil =>
          simp only [List.nil_append, List.cons.injEq] at h1
          rw [← h1.1, hy] at h3
          cases b with
          | true => rfl
          | false => exact absurd h3 hyn
        | cons z pre =>
          simp only [List.cons_append, List.cons.injEq] at h1
          exact absurd hy (h1.1 ▸ (h2 z (by simp)).1)
    · rw [if_neg hy]
      by_cases hn : lower x = str "n"
      · rw [if_pos hn]
        constructor
        · intro h
          cases h
          exact ⟨[], x, l, rfl, by simp, hn⟩
        · rintro ⟨pre, a, post, h1, h2, h3⟩
          cases pre with
          | nil =>
            simp only [List.nil_append, List.cons.injEq] at h1
            rw [← h1.1] at h3
            cases b with
            | true => exact absurd h3 hy
            | false => rfl
          | cons z pre =>
            simp only [List.cons_append, List.cons.injEq] at h1
            exact absurd hn (h1.1 ▸ (h2 z (by simp)).2)
      · rw [if_neg hn]
        refine ih.trans ?_
        constructor
        · rintro ⟨pre, a, post, h1, h2, h3⟩
          refine ⟨x :: pre, a, post, by rw [h1]; rfl, ?_, h3⟩
          intro z hz
          rcases List.mem_cons.1 hz with rfl | hz
          · exact ⟨hy, hn⟩
          · exact h2 z hz
        · rintro ⟨pre, a, post, h1, h2, h3⟩
          cases pre with
          | nil =>
            simp only [List.nil_append, List.cons.injEq] at h1
            rw [← h1.1] at h3
            cases b with
            | true => exact absurd h3 hy
            | false => exact absurd h3 hn
          | cons z pre =>
            simp only [List.cons_append, List.cons.injEq] at h1
            exact ⟨pre, a, post, h1.2, fun y hy => h2 y (by simp [hy]), h3⟩

/-- C74: the SRR may be written when there is no file yet; over a file only with the option -y and not -n, or when
without both the first answer that is a yes or a no is a yes. -/
theorem srr_leave {lower : Str → Str} {fs : FS} {p : Path} {yes no : Bool} {answers : List Str} :
    canOverwrite lower fs p yes no answers = .ok true ↔
      fs p = none ∨ (no = false ∧ (yes = true ∨ ∃ pre a post, answers = pre ++ a :: post ∧
        (∀ x ∈ pre, lower x ≠ str "y" ∧ lower x ≠ str "n") ∧ lower a = str "y")) := by
  unfold canOverwrite
  cases hf : fs p with
  | none => simp
  | some d =>
    cases yes <;> cases no <;> simp [ask_iff]

example : canOverwrite id (fun _ => some []) [] false false [str "", str "no", str "y", str "n"] = .ok true ∧
    canOverwrite id (fun _ => some []) [] true true [] = .ok false ∧
    canOverwrite id (fun _ => some []) [] false false [str "x"] = .error .other := by decide

/-- C74: when there are contents and nothing fails, the SRR is there and no temporary file is. -/
theorem srr_made {a : CreateArgs} {w : World} {fuel : Nat} {fs : FS} {srr tmp src : Path} {c : Bytes}
    (h : a.contents w fuel fs = .ok c) (hp : srr <+: tmp) (hne : tmp ≠ srr) (hnew : fs tmp = none) :
    run (a.command w fuel fs srr tmp src true) fs [] = (fs.set srr (some c), .ok ()) := by
  unfold CreateArgs.command srrCreate
  obtain ⟨r1, h1, h2⟩ := run_andThen ((a.prog w fuel fs tmp src true).andThen (thenMove tmp srr true)) (thenExit srr) fs []
  rw [h2, h1 rfl]
  obtain ⟨r2, h3, h4⟩ := run_andThen (a.prog w fuel fs tmp src true) (thenMove tmp srr true) fs []
  rw [h4, h3 rfl, create_writes_contents h]
  simp only [thenMove, if_true]
  rw [run_move_ok hp hne (FS.set_eq _ _ _)]
  simp only [thenExit, run]
  congr 1
  rw [FS.set_set, FS.set_same _ _ _ hnew]

/-- What is known at every moment. -/
theorem srr_moment {a : CreateArgs} {w : World} {fuel : Nat} {fs : FS} {srr tmp src : Path} {allowed : Bool} {may : Act → Bool} {m : FS} (hne : tmp ≠ srr)
    (h : Moment may (a.command w fuel fs srr tmp src allowed) fs m) :
    (m srr = fs srr ∨ m srr = none ∨ ∃ c, a.contents w fuel fs = .ok c ∧ m srr = some c) ∧ ∀ q, q ≠ tmp → q ≠ srr → m q = fs q := by
  unfold CreateArgs.command srrCreate at h
  cases allowed with
  | false =>
    have hm : m = fs := by
      unfold CreateArgs.prog createProg at h
      by_cases hp : srr.isPrefixOf tmp = true
      · simp only [Bool.false_eq_true, if_false, Prog.andThen, thenMove, hp, if_true, thenExit] at h
        exact moment_done h
      · simp only [Bool.false_eq_true, if_false, Prog.andThen, thenMove, hp, raise, thenExit, Err.caught] at h
        exact moment_done h
    subst hm
    exact ⟨Or.inl rfl, fun _ _ _ => rfl⟩
  | true =>
    have inner : ∀ {may : Act → Bool} {m : FS}, Moment may ((a.prog w fuel fs tmp src true).andThen (thenMove tmp srr true)) fs m →
        (m srr = fs srr ∨ m srr = none ∨ ∃ c, a.contents w fuel fs = .ok c ∧ m srr = some c) ∧ ∀ q, q ≠ tmp → q ≠ srr → m q = fs q := by
      intro may m h
      have hat := createProg_at tmp src true (mkSrrHeader a.app) (writeRest w fuel fs a.infiles a.folder a.store a.savePaths a.compressed a.oso)
      rcases moment_andThen h with h | ⟨faults, fs', r, h1, _, h3⟩
      · exact ⟨Or.inl (moment_at hat h (Ne.symm hne)), fun q h1 _ => moment_at hat h h1⟩
      · have hother : ∀ q, q ≠ tmp → fs' q = fs q := by
          intro q hq
          have := run_at hat fs faults hq
          rw [show createProg _ _ _ _ _ = a.prog w fuel fs tmp src true from rfl, h1] at this
          exact this
        cases r with
        | error e =>
          obtain rfl := moment_done h3
          exact ⟨Or.inl (hother _ (Ne.symm hne)), fun q h1 _ => hother q h1⟩
        | ok u =>
          obtain ⟨c, hc, rfl⟩ := create_success_sound h1
          obtain ⟨h4, h5⟩ := moment_move hne (FS.set_eq _ _ _) h3
          rw [FS.set_ne _ _ (Ne.symm hne)] at h4
          refine ⟨?_, fun q h6 h7 => by rw [h5 q h6 h7, FS.set_ne _ _ h6]⟩
          rcases h4 with h4 | h4 | h4
          · exact Or.inl h4
          · exact Or.inr (Or.inl h4)
          · exact Or.inr (Or.inr ⟨c, hc, h4⟩)
    rcases moment_andThen h with h | ⟨faults, fs', r, h1, _, h3⟩
    · exact inner h
    · have hm := inner (may := fun _ => true) (m := fs') (by
        have := run_moment ((a.prog w fuel fs tmp src true).andThen (thenMove tmp srr true)) fs faults
        rw [h1] at this
        exact this)
      cases r with
      | ok u => obtain rfl := moment_done h3; exact hm
      | error e =>
        simp only [thenExit] at h3
        split at h3
        · rcases moment_unlink h3 with rfl | ⟨_, h4⟩ | ⟨_, h4⟩ | ⟨_, _, h4⟩
          · exact hm
          · obtain rfl := moment_done h4
            exact ⟨Or.inr (Or.inl (FS.set_eq _ _ _)), fun q h5 h6 => by rw [FS.set_ne _ _ h6]; exact hm.2 q h5 h6⟩
          · obtain rfl := moment_done h4; exact hm
          · obtain rfl := moment_done h4; exact hm
        · obtain rfl := moment_done h3; exact hm

/-- C74: whatever fails and whenever the program is killed, the file at the place of the SRR is the one that was
there, or none, or the complete new SRR: never a part of one. -/
theorem srr_never_partial {a : CreateArgs} {w : World} {fuel : Nat} {fs : FS} {srr tmp src : Path} {allowed : Bool} (hne : tmp ≠ srr) :
    (∀ may m, Moment may (a.command w fuel fs srr tmp src allowed) fs m →
      m srr = fs srr ∨ m srr = none ∨ ∃ c, a.contents w fuel fs = .ok c ∧ m srr = some c) ∧
    (∀ faults, ∃ m, (run (a.command w fuel fs srr tmp src allowed) fs faults).1 = m ∧
      (m srr = fs srr ∨ m srr = none ∨ ∃ c, a.contents w fuel fs = .ok c ∧ m srr = some c)) :=
  ⟨fun _ _ h => (srr_moment hne h).1, fun faults => ⟨_, rfl, (srr_moment hne (run_moment _ fs faults)).1⟩⟩

/-- C74: no other file than the SRR and the temporary file is changed. -/
theorem srr_others_untouched {a : CreateArgs} {w : World} {fuel : Nat} {fs : FS} {srr tmp src : Path} {allowed : Bool} (hne : tmp ≠ srr)
    {q : Path} (h1 : q ≠ tmp) (h2 : q ≠ srr) :
    (∀ may m, Moment may (a.command w fuel fs srr tmp src allowed) fs m → m q = fs q) ∧
    (∀ faults, (run (a.command w fuel fs srr tmp src allowed) fs faults).1 q = fs q) :=
  ⟨fun _ _ h => (srr_moment hne h).2 q h1 h2, fun faults => (srr_moment hne (run_moment _ fs faults)).2 q h1 h2⟩

/-- C74: success is only reported when the complete SRR is in its place and the temporary file is gone. -/
theorem srr_success_sound {a : CreateArgs} {w : World} {fuel : Nat} {fs fs' : FS} {srr tmp src : Path} {faults : List Fault} (hne : tmp ≠ srr)
    (h : run (a.command w fuel fs srr tmp src true) fs faults = (fs', .ok ())) :
    ∃ c, a.contents w fuel fs = .ok c ∧ fs' = (fs.set tmp none).set srr (some c) := by
  unfold CreateArgs.command srrCreate at h
  obtain ⟨r1, _, h2⟩ := run_andThen ((a.prog w fuel fs tmp src true).andThen (thenMove tmp srr true)) (thenExit srr) fs faults
  rw [h2] at h
  obtain ⟨r2, _, h4⟩ := run_andThen (a.prog w fuel fs tmp src true) (thenMove tmp srr true) fs faults
  rw [h4] at h
  clear h2 h4
  rcases hr : run (a.prog w fuel fs tmp src true) fs faults with ⟨fs1, r⟩
  rw [hr] at h
  cases r with
  | error e =>
    simp only [thenMove, thenExit, raise, run] at h
    split at h
    · unfold run at h
      split at h <;> simp [run] at h
    · simp [run] at h
  | ok u =>
    obtain ⟨c, hc, rfl⟩ := create_success_sound hr
    simp only [thenMove, if_true] at h
    rcases hr2 : run (moveResult tmp srr) (fs.set tmp (some c)) r2 with ⟨fs2, s⟩
    rw [hr2] at h
    cases s with
    | error e =>
      simp only [thenExit] at h
      split at h
      · unfold run at h
        split at h <;> simp [raise, run] at h
      · simp [raise, run] at h
    | ok u =>
      simp only [thenExit, run] at h
      cases h
      have := run_move_sound hne (FS.set_eq _ _ _) hr2
      rw [this, FS.set_set]
      exact ⟨c, hc, rfl⟩

/-- C74: when the program is killed and no access failed before, the old file is there, or the new one is complete,
in its place or in the temporary file. -/
theorem srr_killed {a : CreateArgs} {w : World} {fuel : Nat} {fs m : FS} {srr tmp src : Path} {c : Bytes}
    (hc : a.contents w fuel fs = .ok c) (hp : srr <+: tmp) (hne : tmp ≠ srr)
    (h : Moment (fun _ => false) (a.command w fuel fs srr tmp src true) fs m) :
    m srr = fs srr ∨ m tmp = some c ∨ m srr = some c := by
  unfold CreateArgs.command srrCreate at h
  have hat := createProg_at tmp src true (mkSrrHeader a.app) (writeRest w fuel fs a.infiles a.folder a.store a.savePaths a.compressed a.oso)
  rcases moment_andThen h with h | ⟨faults, fs', r, h1, h2, h3⟩
  · rcases moment_andThen h with h | ⟨faults, fs', r, h1, h2, h3⟩
    · exact Or.inl (moment_at hat h (Ne.symm hne))
    · rw [run_no_faults h2, create_writes_contents hc] at h1
      cases h1
      exact Or.inr (moment_move_clean hne (FS.set_eq _ _ _) h3)
  · rw [run_no_faults h2] at h1
    obtain ⟨r2, h4, h5⟩ := run_andThen (a.prog w fuel fs tmp src true) (thenMove tmp srr true) fs []
    rw [h5, h4 rfl, create_writes_contents hc] at h1
    simp only [thenMove, if_true] at h1
    rw [run_move_ok hp hne (FS.set_eq _ _ _)] at h1
    cases h1
    obtain rfl := moment_done h3
    exact Or.inr (Or.inr (FS.set_eq _ _ _))

/-- The errors that the command handles: EnvironmentError, ValueError with UnicodeError, and FileNotFound. -/
def Handled (e : Err) : Prop := e = .envError ∨ e = .valueError ∨ e = .unicodeError ∨ e = .fileNotFound

theorem caught_iff (e : Err) : e.caught = true ↔ Handled e := by
  unfold Handled
  cases e <;> simp [Err.caught]

/-- A failure of `create_srr` that the command catches. -/
theorem srr_failed {a : CreateArgs} {w : World} {fuel : Nat} {fs fs' : FS} {srr tmp src : Path} {e : Err}
    (h : run (a.prog w fuel fs tmp src true) fs [] = (fs', .error e)) (hh : Handled e) :
    run (a.command w fuel fs srr tmp src true) fs [] = (fs'.set srr none, .error e) := by
  have he := (caught_iff e).2 hh
  unfold CreateArgs.command srrCreate
  obtain ⟨r1, h1, h2⟩ := run_andThen ((a.prog w fuel fs tmp src true).andThen (thenMove tmp srr true)) (thenExit srr) fs []
  rw [h2, h1 rfl]
  obtain ⟨r2, h3, h4⟩ := run_andThen (a.prog w fuel fs tmp src true) (thenMove tmp srr true) fs []
  rw [h4, h3 rfl, h]
  simp only [thenMove, thenExit, raise, run, he, if_true, List.headD_nil, step, List.tail_nil]
  cases hx : fs' srr with
  | none =>
    simp [run]
    rw [FS.set_same _ _ _ hx]
  | some d => simp [run]

/-- C74: after any other failure of `create_srr` an existing SRR is still there. -/
theorem srr_uncaught {a : CreateArgs} {w : World} {fuel : Nat} {fs : FS} {srr tmp src : Path} {e : Err} {faults : List Fault} (hne : tmp ≠ srr)
    (h : (run (a.prog w fuel fs tmp src true) fs faults).2 = .error e) (he : ¬ Handled e) :
    (run (a.command w fuel fs srr tmp src true) fs faults).1 srr = fs srr ∧ (run (a.command w fuel fs srr tmp src true) fs faults).2 = .error e := by
  unfold CreateArgs.command srrCreate
  obtain ⟨r1, _, h2⟩ := run_andThen ((a.prog w fuel fs tmp src true).andThen (thenMove tmp srr true)) (thenExit srr) fs faults
  obtain ⟨r2, _, h4⟩ := run_andThen (a.prog w fuel fs tmp src true) (thenMove tmp srr true) fs faults
  have hc : e.caught = false := by
    cases hx : e.caught with
    | false => rfl
    | true => exact absurd ((caught_iff e).1 hx) he
  rw [h2, h4, h]
  simp only [thenMove, thenExit, raise, run, hc, Bool.false_eq_true, if_false]
  exact ⟨(create_only_writes_srr a w fuel fs tmp src true).1 faults srr (Ne.symm hne), trivial⟩

/-- C74, violation: an existing SRR is deleted when a volume is missing, although the new one was to be written to a
temporary file until it is complete. -/
theorem srr_existing_lost {a : CreateArgs} {w : World} {fuel : Nat} {fs : FS} {srr tmp src : Path} {old : Bytes} (hold : fs srr = some old) (hne : tmp ≠ srr)
    {p : Path} (u : UpTo a w fuel fs p) (hu : Usual p) {names : List Str} (hl : w.listdir (dirname p) = some names)
    (hno : ∀ d ∈ names, w.lower d = w.lower (basename p) → fs (posixJoin2 (dirname p) d) = none) (hf : fs p = none) :
    run (a.command w fuel fs srr tmp src true) fs [] = ((fs.set tmp none).set srr none, .error .fileNotFound) ∧ fs srr ≠ none :=
  ⟨srr_failed (create_missing_removed u hu hl hno hf) (by simp [Handled]), by rw [hold]; simp⟩

/-- C74, violation: a part of an SRR is left in the temporary file when a volume can not be read. -/
theorem srr_temp_left {a : CreateArgs} {w : World} {fuel : Nat} {fs : FS} {srr tmp src : Path} (hne : tmp ≠ srr) {p : Path}
    (u : UpTo a w fuel fs p) (hu : Usual p) (ho : OnlyCase w fs p) {data : Bytes} (hf : fs p = some data)
    {name : Str} (hname : srrName w a.savePaths a.folder p = .ok name) {hdr : Bytes} (hhdr : mkRarFile name = .ok hdr)
    {e : Err} (hread : readAll data = .error e) (he : Handled e) :
    (run (a.command w fuel fs srr tmp src true) fs []).1 tmp = some (u.header ++ (u.storedBytes ++ (u.written.1 ++ hdr))) := by
  rw [srr_failed (create_damaged_left u hu ho hf hname hhdr hread) he]
  show (FS.set _ srr none) tmp = _
  rw [FS.set_ne _ _ hne, FS.set_eq]

/-! ### Where the SRR goes -/

/-- C74: the SRR has the name of the first input file with another extension, and its temporary file is next to it. -/
theorem srr_target_default {lower : Str → Str} {work folder dir b ext rnd : Str} {infiles : List Path} (hb : b ≠ []) (hbs : 0x2F ∉ b) (hext : ext.length = 4) (hes : 0x2F ∉ ext)
    (hw : ¬ [0x2F, 0x2F] <:+ work) (srr : Path)
    (h : srrTarget lower work folder none false ((dir ++ (0x2F :: (b ++ ext))) :: infiles) = .ok srr) :
    srr = posixJoin2 work (b ++ str ".srr") ∧ srr <+: tempName rnd srr ∧ tempName rnd srr ≠ srr := by
  have hne : (0x2F : Nat) ∉ b ++ ext := by
    intro hm
    rcases List.mem_append.1 hm with hm | hm
    · exact hbs hm
    · exact hes hm
  have hbase : basename (dir ++ (0x2F :: (b ++ ext))) = b ++ ext := basename_slash _ hne
  unfold srrTarget srrTarget.srrIn at h
  simp only [Bool.false_eq_true, if_false, hbase, Except.ok.injEq, List.length_append, hext, Nat.add_sub_cancel, List.take_left'] at h
  have hs : srr = posixJoin2 work (b ++ str ".srr") := h.symm
  have hplain : PlainElem (b ++ str ".srr") := by
    refine ⟨by simp [hb], ?_, ?_, ?_⟩
    · intro he
      have := congrArg List.length he
      simp [str] at this
    · intro he
      have := congrArg List.length he
      simp [str] at this
    · intro hm
      rcases List.mem_append.1 hm with hm | hm
      · exact hbs hm
      · exact absurd hm (by decide)
  refine ⟨hs, hs ▸ result_prefix rnd hplain hw, ?_⟩
  intro he
  have hj : ∀ x y : Str, y <:+ posixJoin2 x y := by
    intro x y
    unfold posixJoin2
    split
    · exact List.suffix_refl _
    · split
      · exact List.suffix_append _ _
      · exact ⟨x ++ [0x2F], by simp⟩
  have h1 : str ".tmp" <:+ srr := by
    rw [← he]
    refine List.IsSuffix.trans ?_ (hj _ _)
    exact ⟨basename srr ++ ([0x2D] ++ rnd), by simp⟩
  have h2 : str ".srr" <:+ srr := by
    rw [hs]
    exact List.IsSuffix.trans (List.suffix_append _ _) (hj _ _)
  have h3 : str ".tmp" <:+ str ".srr" := List.suffix_of_suffix_length_le h1 h2 (by decide)
  exact absurd (List.IsSuffix.eq_of_length h3 (by decide)) (by decide)

/-- C74: a given name that ends in ".srr", in any case, is the name of the SRR. -/
theorem srr_target_given {lower : Str → Str} {work folder o ext : Str} {parent : Bool} {infiles : List Path}
    (hl : ext.length = 4) (he : lower ext = str ".srr") :
    srrTarget lower work folder (some (o ++ ext)) parent infiles = .ok (o ++ ext) := by
  unfold srrTarget
  have hn : o ++ ext ≠ [] := by
    intro h
    have := congrArg List.length h
    simp [hl] at this
  dsimp only
  rw [List.length_append, hl, Nat.add_sub_cancel, List.drop_left]
  simp only [hn, he, ne_eq, not_false_eq_true, and_self, if_true]

/-- C74: another one is the folder of the SRR. -/
theorem srr_target_folder {lower : Str → Str} {work folder o : Str} {parent : Bool} {infiles : List Path} (ho : o ≠ [])
    (hn : ∀ o' ext, o = o' ++ ext → ext.length = 4 → lower ext ≠ str ".srr") (hlen : 4 ≤ o.length) :
    srrTarget lower work folder (some o) parent infiles = srrTarget lower o folder none parent infiles := by
  unfold srrTarget
  have : lower (o.drop (o.length - 4)) ≠ str ".srr" :=
    hn (o.take (o.length - 4)) _ (List.take_append_drop _ _).symm (by rw [List.length_drop]; omega)
  simp only [ho, this, and_false, if_false]

/-- C74: with the option -d the SRR in the folder has the name of the release. -/
theorem srr_target_parent {lower : Str → Str} {work dir release : Str} {infiles : List Path} (hr : 0x2F ∉ release) :
    srrTarget lower work (dir ++ (0x2F :: release)) none true infiles = .ok (posixJoin2 work (release ++ str ".srr")) := by
  unfold srrTarget srrTarget.srrIn
  rw [if_pos rfl, basename_slash _ hr]

example : srrTarget (List.map lowerA) (str "/w") (str "/r/Rel") (some (str "/o/x.SRR")) true [] = .ok (str "/o/x.SRR") ∧
    srrTarget (List.map lowerA) (str "/w") (str "/r/Rel") (some (str "/out")) true [] = .ok (str "/out/Rel.srr") ∧
    srrTarget (List.map lowerA) (str "/w") (str "/r/Rel") none false [str "/r/Rel/a.sfv"] = .ok (str "/w/a.srr") := by decide +kernel

/-! ### Concrete cases -/

set_option maxRecDepth 100000

/-- The SRR of the example is made. -/
theorem srr_example : ∃ c, run (exCreate.command inWorld 9 inDisk (str "/o/a.srr") (str "/o/a.srr-x1.tmp") (str "/in") true) inDisk [] =
    (FS.set inDisk (str "/o/a.srr") (some c), .ok ()) := by
  obtain ⟨c, hc⟩ : ∃ c, exCreate.contents inWorld 9 inDisk = .ok c := by
    have : (exCreate.contents inWorld 9 inDisk).isOk = true := by decide +kernel
    cases h : exCreate.contents inWorld 9 inDisk with
    | ok c => exact ⟨c, rfl⟩
    | error e => rw [h] at this; cases this
  exact ⟨c, srr_made hc (by decide) (by decide) (by decide +kernel)⟩

/-- The same disk with an SRR and without the second volume. -/
def lostDisk (p : Path) : Option Bytes := if p = str "/o/a.srr" then some [1, 2, 3] else goneDisk p

/-- The hypotheses of `srr_existing_lost` hold: the SRR is lost. -/
theorem srr_lost_example : (run (exCreate.command inWorld 9 lostDisk (str "/o/a.srr") (str "/o/a.srr-x1.tmp") (str "/in") true) lostDisk []).1 (str "/o/a.srr") = none ∧
    lostDisk (str "/o/a.srr") = some [1, 2, 3] := by
  have h := (srr_existing_lost (fs := lostDisk) (srr := str "/o/a.srr") (tmp := str "/o/a.srr-x1.tmp") (src := str "/in") (old := [1, 2, 3]) (by decide +kernel) (by decide)
    (exUpTo lostDisk (gone_collect _ (by decide +kernel)) (by rw [stored_exact inWorld_ok]; decide +kernel) (by decide +kernel)
      (by
        have e : basename (str "/in/a.rar") = str "a.rar" := by decide +kernel
        rw [rars_found (name := basename) (fun p hp => ?_)]
        · simp only [List.map_cons, List.map_nil, e]
        · simp only [List.mem_singleton] at hp
          subst hp
          exact ⟨inUsual.1, ⟨[str "a.sfv", str "a.r00", str "a.rar", str "a.nfo"], by decide +kernel, by decide +kernel, by decide +kernel⟩,
            by decide +kernel, rfl⟩)
      (by decide +kernel))
    inUsual.2 (names := [str "a.sfv", str "a.r00", str "a.rar", str "a.nfo"]) (by decide +kernel) (by decide +kernel) (by decide +kernel)).1
  refine ⟨?_, by decide +kernel⟩
  rw [h]
  exact FS.set_eq (FS.set lostDisk (str "/o/a.srr-x1.tmp") none) (str "/o/a.srr") none

/-- The hypotheses of `srr_temp_left` hold: a damaged volume makes the command fail with the temporary file left. -/
theorem srr_temp_example : ∃ c, (run (exCreate.command inWorld 9 badDisk (str "/o/a.srr") (str "/o/a.srr-x1.tmp") (str "/in") true) badDisk []).1 (str "/o/a.srr-x1.tmp") = some c ∧
    badDisk (str "/o/a.srr-x1.tmp") = none := by
  have he : readAll [0x52] = .error .valueError := by decide +kernel
  have hh : mkRarFile (str "a.r00") = .ok (getOk (mkRarFile (str "a.r00")) []) := by decide +kernel
  exact ⟨_, srr_temp_left (srr := str "/o/a.srr") (tmp := str "/o/a.srr-x1.tmp") (by decide)
    (exUpTo badDisk (gone_collect _ (by decide +kernel)) (by rw [stored_exact inWorld_ok]; decide +kernel) (by decide +kernel)
      (by
        have e : basename (str "/in/a.rar") = str "a.rar" := by decide +kernel
        rw [rars_found (name := basename) (fun p hp => ?_)]
        · simp only [List.map_cons, List.map_nil, e]
        · simp only [List.mem_singleton] at hp
          subst hp
          exact ⟨inUsual.1, ⟨[str "a.sfv", str "a.r00", str "a.rar", str "a.nfo"], by decide +kernel, by decide +kernel, by decide +kernel⟩,
            by decide +kernel, rfl⟩)
      (by decide +kernel))
    inUsual.2 ⟨[str "a.sfv", str "a.r00", str "a.rar", str "a.nfo"], by decide +kernel, by decide +kernel, by decide +kernel⟩
    (data := [0x52]) (by decide +kernel) (name := str "a.r00") (by decide +kernel) hh he (by simp [Handled]), by decide +kernel⟩

end Rescene.Props
