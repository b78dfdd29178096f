import Verif.Props.AutoContents
import Verif.Props.CreateFiles
/-
C82: `pyrescene` replaces the SRR of a release only by the complete one, with the wanted files.
-/
namespace Rescene.Props
open Rescene Spec

/-- The files of a job are different ones, and the work in the working folder touches only files `W`, not the SRR and its
temporary file. -/
structure JobNames (j : AutoJob) (W : Path → Prop) : Prop where
  srrTmp : j.tmp ≠ j.srr
  srrRemove : j.tmpRemove ≠ j.srr
  srrAdd : j.tmpAdd ≠ j.srr
  tmpRemove : j.tmp ≠ j.tmpRemove
  tmpAdd : j.tmp ≠ j.tmpAdd
  work : OnlyIn W j.work
  srrWork : ¬ W j.srr
  tmpWork : ¬ W j.tmp

/-- The release as `pyrescene` sees it: the SFV files of the main RAR files, the folder, the options. -/
structure AutoArgs where
  app : Str
  sfvs : List Path
  folder : Str
  compressed : Bool
  oso : Bool

/-- pyrescene.py:890-893: the arguments of `create_srr`. -/
def AutoArgs.create (a : AutoArgs) : CreateArgs := ⟨a.app, a.sfvs, a.folder, [], true, a.compressed, a.oso⟩

/-- `generate_srr` for a release on the disk `fs`. -/
def AutoArgs.prog (a : AutoArgs) (w : World) (upper : Str → Str) (fuel : Nat) (fs : FS) (src : Path) (j : AutoJob) : Prog :=
  autoSrr w.lower upper j (fs j.srr).isSome (a.create.prog w fuel fs j.tmp src j.allowed) (a.create.contents w fuel fs)

/-- The SRR that is wanted: the volumes and the files of the job. -/
def AutoArgs.whole (a : AutoArgs) (w : World) (fuel : Nat) (fs : FS) (j : AutoJob) : Res Bytes :=
  releaseSrr w fuel fs a.app a.sfvs a.folder j.news a.compressed a.oso

theorem autoOk {a : AutoArgs} {w : World} {fuel : Nat} {fs : FS} {src : Path} {j : AutoJob} {W : Path → Prop} (hn : JobNames j W) :
    AutoOk j W (a.create.prog w fuel fs j.tmp src j.allowed) (a.create.contents w fuel fs) fs where
  srrTmp := hn.srrTmp
  srrRemove := hn.srrRemove
  srrAdd := hn.srrAdd
  tmpRemove := hn.tmpRemove
  tmpAdd := hn.tmpAdd
  work := hn.work
  srrWork := hn.srrWork
  tmpWork := hn.tmpWork
  createAt := createProg_at _ _ _ _ _
  createOk := by
    intro ha faults fs' h
    rw [ha] at h
    exact create_success_sound h

theorem whole_of_result {a : AutoArgs} {w : World} {upper : Str → Str} {fuel : Nat} {fs : FS} {j : AutoJob} {rars : List Path} {data : Path → Bytes}
    {name : Path → Str} {d c : Bytes} (hr : Release w fuel fs a.sfvs a.folder rars data name) (hlen : LongEnough a.app rars)
    (hd : a.create.contents w fuel fs = .ok d) (hc : autoResult w.lower upper j d = .ok c) : a.whole w fuel fs j = .ok c := by
  have hi : ∃ i, info w.lower upper d = .ok i := by
    unfold autoResult at hc
    rw [bind_eq_ok] at hc
    exact ⟨hc.choose, hc.choose_spec.1⟩
  obtain ⟨i, hi⟩ := hi
  rw [auto_contents hr hlen hd hi] at hc
  exact hc

/-- C82: whatever fails, and whenever the process is killed, the SRR is the old one, there is none, or it is the complete
new one: the volumes of the release and exactly the files of the working folder. -/
theorem auto_never_partial {a : AutoArgs} {w : World} {upper : Str → Str} {fuel : Nat} {fs m : FS} {src : Path} {j : AutoJob} {W : Path → Prop}
    {rars : List Path} {data : Path → Bytes} {name : Path → Str} {may : Act → Bool} (hn : JobNames j W)
    (hr : Release w fuel fs a.sfvs a.folder rars data name) (hlen : LongEnough a.app rars)
    (hm : Moment may (a.prog w upper fuel fs src j) fs m) :
    m j.srr = fs j.srr ∨ m j.srr = none ∨ ∃ c, a.whole w fuel fs j = .ok c ∧ m j.srr = some c := by
  rcases autoSrr_moment (autoOk hn) hm with h | ⟨fs1, d, c, h1, h2, h3, h4, h5⟩
  · exact Or.inl h
  · rcases (moment_move hn.srrTmp h4 h5).1 with h | h | h
    · exact Or.inl (h.trans h3)
    · exact Or.inr (Or.inl h)
    · exact Or.inr (Or.inr ⟨c, whole_of_result hr hlen h1 h2, h⟩)

/-- C82: no file is touched but the SRR, the temporary files, and those the work touches. -/
theorem auto_others_untouched {a : AutoArgs} {w : World} {upper : Str → Str} {fuel : Nat} {fs m : FS} {src : Path} {j : AutoJob} {W : Path → Prop}
    {may : Act → Bool} (hn : JobNames j W) (hm : Moment may (a.prog w upper fuel fs src j) fs m) {q : Path}
    (h1 : q ≠ j.srr) (h2 : q ≠ j.tmp) (h3 : q ≠ j.tmpRemove) (h4 : q ≠ j.tmpAdd) (h5 : ¬ W q) : m q = fs q := by
  refine moment_in (autoSrr_in (autoOk hn) _) hm ?_
  rintro (h | h | h | h | h)
  · exact h1 h
  · exact h2 h
  · exact h3 h
  · exact h4 h
  · exact h5 h

/-- C82: `True` is only returned when the complete SRR is there, and its temporary file is not, or when there was an SRR that
is not to be replaced. -/
theorem auto_success_sound {a : AutoArgs} {w : World} {upper : Str → Str} {fuel : Nat} {fs fs' : FS} {src : Path} {j : AutoJob} {W : Path → Prop}
    {rars : List Path} {data : Path → Bytes} {name : Path → Str} {faults : List Fault} (hn : JobNames j W)
    (hr : Release w fuel fs a.sfvs a.folder rars data name) (hlen : LongEnough a.app rars)
    (h : run (a.prog w upper fuel fs src j) fs faults = (fs', .ok ())) :
    (j.skip = true ∧ fs j.srr ≠ none ∧ fs' = fs) ∨ ∃ c, a.whole w fuel fs j = .ok c ∧ fs' j.srr = some c ∧ fs' j.tmp = none := by
  rcases autoSrr_end (autoOk hn) (faultsIn_all _ _ _) h with ⟨_, h1⟩ | ⟨fs1, fl, d, c, h1, h2, _, h4, _, h6⟩
  · obtain ⟨g1, g2, g3⟩ := h1 rfl
    refine Or.inl ⟨g1, ?_, g3⟩
    intro hx
    rw [hx] at g2
    cases g2
  · have := run_move_sound hn.srrTmp h4 h6
    refine Or.inr ⟨c, whole_of_result hr hlen h1 h2, ?_, ?_⟩
    · rw [this, FS.set_eq]
    · rw [this, FS.set_ne _ _ hn.srrTmp, FS.set_eq]

/-- C82: after an error the SRR that was there is still there, unless it was the last step, the renaming, that failed. -/
theorem auto_failed_keeps {a : AutoArgs} {w : World} {upper : Str → Str} {fuel : Nat} {fs fs' : FS} {src : Path} {j : AutoJob} {W : Path → Prop}
    {may : Act → Bool} {faults : List Fault} {e : Err} (hn : JobNames j W) (hmay : may (.rename j.tmp j.srr) = false)
    (hf : FaultsIn may (a.prog w upper fuel fs src j) fs faults) (h : run (a.prog w upper fuel fs src j) fs faults = (fs', .error e)) :
    fs' j.srr = fs j.srr := by
  rcases autoSrr_end (autoOk hn) hf h with ⟨h1, _⟩ | ⟨fs1, fl, d, c, _, _, h3, h4, h5, h6⟩
  · exact h1
  · exact (run_move_failed hn.srrTmp hmay h4 h5 h6).trans h3

/-! ### The run without faults -/

theorem run_andThen_run {p : Prog} {k : Res Unit → Prog} {fs fs1 : FS} {faults : List Fault} {r : Res Unit} (h : run p fs faults = (fs1, r)) :
    ∃ rest, run (p.andThen k) fs faults = run (k r) fs1 rest := by
  obtain ⟨rest, _, h2⟩ := run_andThen p k fs faults
  exact ⟨rest, by rw [h2, h]⟩

theorem run_andThen_nil {p : Prog} {k : Res Unit → Prog} {fs fs1 : FS} {r : Res Unit} (h : run p fs [] = (fs1, r)) :
    run (p.andThen k) fs [] = run (k r) fs1 [] := by
  obtain ⟨rest, h1, h2⟩ := run_andThen p k fs []
  rw [h2, h1 rfl, h]

/-- The files are as `create_srr` left them, up to the temporary file. -/
def WorkOk (j : AutoJob) (fs : FS) : Prop := ∀ x, ∃ fs', run j.work (fs.set j.tmp (some x)) [] = (fs', .ok ()) ∧ fs' j.tmpAdd = none

theorem readInfo {lower upper : Str → Str} {d : Bytes} {i : Info} {c : List Entry} (hc : Contents d c) (hi : info lower upper d = .ok i)
    {j : AutoJob} (hne : j.tmp ≠ j.tmpRemove) {fs : FS} (hrm : fs j.tmpRemove = none) :
    ∃ left, leftBytes d (i.stored.map (·.1)) = .ok left ∧
      run (autoEdits lower upper j d) (fs.set j.tmp (some d)) [] = run (autoWork j left) (fs.set j.tmp (some left)) [] := by
  obtain ⟨new, h1, h2, _⟩ := remove_drops (srr := j.tmp) (tmp := j.tmpRemove) (fs := fs.set j.tmp (some d)) (names := i.stored.map (·.1)) hne
    (by rw [FS.set_ne _ _ (Ne.symm hne)]; exact hrm) (FS.set_eq _ _ _) hc
  obtain ⟨w, g1, g2⟩ := run_remove_sound hne h1
  have : w = new := by
    have := congrFun g2 j.tmp
    rw [FS.set_eq, FS.set_eq] at this
    exact (Option.some.inj this).symm
  subst this
  refine ⟨w, g1, ?_⟩
  unfold autoEdits
  simp only [run, step, List.headD_nil, List.tail_nil, hi]
  rw [run_andThen_nil h1]
  simp only [g1, FS.set_set]

theorem autoProg_run {a : AutoArgs} {w : World} {upper : Str → Str} {fuel : Nat} {fs : FS} {src : Path} {j : AutoJob} {d : Bytes} (hskip : j.skip = false ∨ fs j.srr = none)
    (hall : j.allowed = true) (hd : a.create.contents w fuel fs = .ok d) :
    run (a.prog w upper fuel fs src j) fs [] = run (autoEdits w.lower upper j d) (fs.set j.tmp (some d)) [] := by
  unfold AutoArgs.prog autoSrr
  have : (j.skip && (fs j.srr).isSome) = false := by
    rcases hskip with h | h
    · simp [h]
    · simp [h]
  rw [this]
  simp only [Bool.false_eq_true, if_false]
  rw [hall, run_andThen_nil (create_writes_contents hd)]
  simp only [if_true, hd]

/-- The SRR, the release and the job of a run: what `create_srr` makes is readable, and the names are free. -/
structure AutoRun (a : AutoArgs) (w : World) (upper : Str → Str) (fuel : Nat) (fs : FS) (j : AutoJob) (W : Path → Prop) (rars : List Path)
    (data : Path → Bytes) (name : Path → Str) (made : Bytes) (i : Info) : Prop where
  names : JobNames j W
  near : j.srr <+: j.tmp
  release : Release w fuel fs a.sfvs a.folder rars data name
  long : LongEnough a.app rars
  skip : j.skip = false ∨ fs j.srr = none
  allowed : j.allowed = true
  created : a.create.contents w fuel fs = .ok made
  readable : info w.lower upper made = .ok i
  free : fs j.tmpRemove = none

theorem AutoRun.to_work {a : AutoArgs} {w : World} {upper : Str → Str} {fuel : Nat} {fs : FS} {j : AutoJob} {W : Path → Prop} {rars : List Path}
    {data : Path → Bytes} {name : Path → Str} {made : Bytes} {i : Info} (h : AutoRun a w upper fuel fs j W rars data name made i) (src : Path) :
    ∃ left, leftBytes made (i.stored.map (·.1)) = .ok left ∧
      run (a.prog w upper fuel fs src j) fs [] = run (autoWork j left) (fs.set j.tmp (some left)) [] := by
  obtain ⟨_, _, _, _, _, _, _, _, _, _, hcont, _⟩ := created_contents h.release h.long h.created
  obtain ⟨left, h1, h2⟩ := readInfo hcont h.readable h.names.tmpRemove h.free
  exact ⟨left, h1, by rw [autoProg_run h.skip h.allowed h.created, h2]⟩

/-- C82: when nothing fails, the SRR is the complete new one, the temporary file is gone, and nothing else changes outside the
working folder. -/
theorem auto_srr_made {a : AutoArgs} {w : World} {upper : Str → Str} {fuel : Nat} {fs : FS} {j : AutoJob} {W : Path → Prop} {rars : List Path}
    {data : Path → Bytes} {name : Path → Str} {made : Bytes} {i : Info} (h : AutoRun a w upper fuel fs j W rars data name made i) (src : Path)
    (hwork : WorkOk j fs) (hfp : j.noFpcalc = false) {c : Bytes} (hc : a.whole w fuel fs j = .ok c) :
    ∃ fs', run (a.prog w upper fuel fs src j) fs [] = (fs', .ok ()) ∧ fs' j.srr = some c ∧ fs' j.tmp = none ∧
      ∀ q, q ≠ j.srr → q ≠ j.tmp → ¬ W q → fs' q = fs q := by
  obtain ⟨left, h1, h2⟩ := h.to_work src
  obtain ⟨fs3, h3, h4⟩ := hwork left
  have hres : autoResult w.lower upper j made = .ok c := by
    rw [auto_contents h.release h.long h.created h.readable]
    exact hc
  unfold autoResult at hres
  rw [h.readable, ok_bind, h1, ok_bind, bind_eq_ok] at hres
  obtain ⟨blocks, b1, b2⟩ := hres
  have hin := h.names.work
  have htmp : fs3 j.tmp = some left := by
    have := run_in hin (fs.set j.tmp (some left)) [] h.names.tmpWork
    rw [h3, FS.set_eq] at this
    exact this
  -- no stored file is left
  obtain ⟨hd, es1, es2, _, _, _, _, _, _, hh, hcont, s1, s2, _, _, _, _, _, _, h20⟩ := created_contents h.release h.long h.created
  have hdup : dupeCheck j.storeFiles blocks = .ok () := by
    have hnames := info_names hcont h.readable
    have hfilter : ∀ e ∈ (⟨0x69, .srrHeader a.app, hd, []⟩ :: (es1 ++ es2) : List Entry).filter (fun e => !e.isOneOf (i.stored.map (·.1))),
        ∀ n, ¬ e.isStored n := by
      intro e he n hst
      obtain ⟨he, hno⟩ := List.mem_filter.1 he
      obtain ⟨hb, size, hk⟩ := hst
      have := hnames e he size n hb hk
      unfold Entry.isOneOf at hno
      rw [hk] at hno
      simp only [hb, beq_self_eq_true, Bool.true_and, List.contains_eq_mem, this, decide_true, Bool.not_true] at hno
      cases hno
    obtain ⟨l1, l2⟩ := left_contents (i.stored.map (·.1)) hcont
    rw [h1] at l1
    have hle := Except.ok.inj l1
    have hlen : 20 ≤ (entriesBytes ((⟨0x69, .srrHeader a.app, hd, []⟩ :: (es1 ++ es2) : List Entry).filter fun e => !e.isOneOf (i.stored.map (·.1)))).length := by
      rw [← hle]
      have : ∃ m, openReader left = .ok m := by
        unfold readSrr at b1
        rw [bind_eq_ok] at b1
        exact ⟨_, b1.choose_spec.1⟩
      obtain ⟨m, hm⟩ := this
      unfold openReader at hm
      split at hm
      · cases hm
      · omega
    have hcl := l2 hlen
    rw [← hle] at hcl
    obtain ⟨l, hg, hf, hl, htr⟩ := items_of_contents hcl
    have : blocks = (layout 0 l).map (·.1) := by
      have := readSrr_layout hcl.1 htr
      rw [b1] at this
      exact Except.ok.inj this
    rw [this]
    refine dupeCheck_ok hg.data ?_
    intro x hx n hb hk
    exact absurd (⟨hb, _, hk⟩ : (toEntry x).isStored n) (hfilter _ (hl ▸ List.mem_map_of_mem hx) n)
  have hadd : run (addProg j.tmp j.tmpAdd left j.storeFiles j.news) fs3 [] = (fs3.set j.tmp (some c), .ok ()) := by
    unfold addProg
    simp only [run, step, List.headD_nil, List.tail_nil, b1, hdup]
    rw [run_writeChunks b2 (FS.set_eq _ _ _), FS.set_set, List.nil_append, run_replaceSrr h.names.tmpAdd h4 htmp]
  refine ⟨((fs3.set j.tmp (some c)).set j.tmp none).set j.srr (some c), ?_, FS.set_eq _ _ _, ?_, ?_⟩
  · rw [h2]
    unfold autoWork
    rw [run_andThen_nil h3, hfp]
    simp only [Bool.false_eq_true, if_false]
    unfold autoAdd
    rw [run_andThen_nil hadd]
    exact run_move_ok h.near h.names.srrTmp (FS.set_eq _ _ _)
  · rw [FS.set_ne _ _ h.names.srrTmp, FS.set_eq]
  · intro q q1 q2 q3
    rw [FS.set_ne _ _ q1, FS.set_ne _ _ q2, FS.set_ne _ _ q2]
    have := run_in hin (fs.set j.tmp (some left)) [] q3
    rw [h3, FS.set_ne _ _ q2] at this
    exact this

/-! ### The volumes come back -/

theorem files_of_news {news : List NewFile} : ∀ {es : List Entry}, newEntries news = .ok es →
    ∃ files : List (Str × Bytes), news = files.map (fun x => (x.1, .ok x.2)) ∧ writePieces (storedPieces files) = .ok (entriesBytes es) := by
  induction news with
  | nil =>
    intro es h
    simp only [newEntries, Except.ok.injEq] at h
    subst h
    exact ⟨[], rfl, rfl⟩
  | cons f t ih =>
    intro es h
    simp only [newEntries, newEntry, bind_eq_ok, pure_eq_ok, Except.ok.injEq] at h
    obtain ⟨e, ⟨d, hd, raw, hraw, rfl⟩, r, hr, rfl⟩ := h
    obtain ⟨files, f1, f2⟩ := ih hr
    refine ⟨(f.1, d) :: files, ?_, ?_⟩
    · rw [List.map_cons, ← f1, ← hd]
    · unfold storedPieces at f2 ⊢
      rw [List.map_cons, writePieces]
      show (mkStored f.1 d.length >>= _) = _
      rw [hraw, ok_bind, f2, ok_bind, entriesBytes_cons]
      rfl

/-- C82: from the SRR of the release the volumes can be rebuilt, byte for byte. -/
theorem auto_srr_rebuilds {a : AutoArgs} {w : World} {fuel : Nat} {fs : FS} {j : AutoJob} {rars : List Path}
    {data : Path → Bytes} {name : Path → Str} {made c : Bytes}
    (hr : Release w fuel fs a.sfvs a.folder rars data name) (hne : rars ≠ []) (hmade : a.create.contents w fuel fs = .ok made)
    (hc : a.whole w fuel fs j = .ok c)
    {r : RecArgs} {fs1 : FS} (hsrr : fs1 r.srr = some c) (hpart : r.part = []) {ext : List Path}
    (hext : r.extractFiles = true → ∀ f ∈ j.news, ∃ p ∈ ext, opath f.1 r.extractPaths r.outFolder = .ok p ∧ p ≠ r.srr)
    {out : Path → Path}
    (hout : ∀ p ∈ rars, opath (name p) r.extractPaths r.outFolder = .ok (out p) ∧
      (fs1 (out p) = none ∧ out p ∉ ext ∨ r.ask (out p) = true))
    (hdiff : (rars.map out).Nodup)
    (hsrc : Packs (SourceIs r fs1 (rars.map out ++ ext)) none (rars.flatMap fun p => volumeParts (data p))) :
    ∃ fs2 reports, reconstruct r fs1 = .ok (fs2, reports, true) ∧
      (∀ p ∈ rars, fs2 (out p) = some (data p)) ∧
      ∀ q, q ∉ rars.map out → q ∉ ext → fs2 q = fs1 q := by
  have hmade' : createFrom w fuel fs a.app a.sfvs a.folder [] true a.compressed a.oso = .ok made := hmade
  obtain ⟨h, es1, es2, vols, v, dict, o, osos, hvols, hh, hcont, s1, s2, s3, ho, hrow, g1, g2, hb, h20⟩ := created_contents hr (Or.inl hne) hmade'
  unfold AutoArgs.whole releaseSrr at hc
  rw [hh, ok_bind, hr.found, ok_bind, rars_found (name := name) (fun p hp => by
    obtain ⟨h1, h2, h3, _, h5⟩ := hr.good p hp
    exact ⟨h1, h2, by rw [h3]; rfl, h5⟩), ok_bind, bind_eq_ok] at hc
  obtain ⟨es, hes, hc⟩ := hc
  have hmap : (rars.map fun p => (⟨p, p, name p⟩ : RarIn)) = vols.map (·.1) := by
    rw [hvols, List.map_map]; rfl
  rw [hmap, g1, ok_bind] at hc
  dsimp only at hc
  rw [g2, ok_bind, pure_eq_ok, Except.ok.injEq] at hc
  obtain ⟨files, f1, f2⟩ := files_of_news hes
  have hw : writeSrr a.app (storedPieces files ++ (volumesPieces vols ++ osos)) = .ok c := by
    unfold writeSrr
    rw [hh, ok_bind, writePieces_append _ _ f2 (entries_write hrow), ok_bind, hb, ← hc]
    rfl
  have hgood : ∀ v ∈ vols, GoodVolume v.2 := by
    intro v hv
    rw [hvols] at hv
    obtain ⟨p, hp, rfl⟩ := List.mem_map.1 hv
    exact (hr.good p hp).2.2.2.1
  have hm2 : vols.map (fun v => out v.1.rar) = rars.map out := by
    rw [hvols, List.map_map]; rfl
  have hm3 : (vols.flatMap fun v => volumeParts v.2) = rars.flatMap fun p => volumeParts (data p) := by
    rw [hvols, List.flatMap_map]
  obtain ⟨fs2, reports, k1, k2, k3⟩ := written_reconstruct (a := r) (ext := ext) (out := fun v => out v.1.rar) hw ho hgood
    (by rw [hvols]; simpa using hne) hsrr hpart
    (fun hx x hxm => hext hx (x.1, .ok x.2) (by rw [f1]; exact List.mem_map_of_mem hxm))
    (by
      intro v hv
      rw [hvols] at hv
      obtain ⟨p, hp, rfl⟩ := List.mem_map.1 hv
      exact hout p hp)
    (by rw [hm2]; exact hdiff) (by rw [hm2, hm3]; exact hsrc)
  refine ⟨fs2, reports, k1, fun p hp => ?_, fun q hq => k3 q (by rw [hm2]; exact hq)⟩
  exact k2 (⟨p, p, name p⟩, data p) (by rw [hvols]; exact List.mem_map.2 ⟨p, hp, rfl⟩)

/-! ### What is left behind -/

/-- C82, violation: when the work fails, the SRR without the stored files is left in the temporary file. -/
theorem auto_work_left {a : AutoArgs} {w : World} {upper : Str → Str} {fuel : Nat} {fs : FS} {j : AutoJob} {W : Path → Prop} {rars : List Path}
    {data : Path → Bytes} {name : Path → Str} {made : Bytes} {i : Info} (h : AutoRun a w upper fuel fs j W rars data name made i) (src : Path) {e : Err}
    (hwork : ∀ x, ∃ fs', run j.work (fs.set j.tmp (some x)) [] = (fs', .error e)) :
    ∃ fs' left, run (a.prog w upper fuel fs src j) fs [] = (fs', .error e) ∧ fs' j.tmp = some left := by
  obtain ⟨left, h1, h2⟩ := h.to_work src
  obtain ⟨fs3, h3⟩ := hwork left
  refine ⟨fs3, left, ?_, ?_⟩
  · rw [h2]
    unfold autoWork
    rw [run_andThen_nil h3]
    rfl
  · have := run_in h.names.work (fs.set j.tmp (some left)) [] h.names.tmpWork
    rw [h3, FS.set_eq] at this
    exact this

/-- C82, violation: interrupted while `create_srr` works, the program means to delete the temporary file, but fails to read
`e.message`: the file is left, and what is raised is AttributeError. -/
theorem auto_interrupt_left {a : AutoArgs} {w : World} {upper : Str → Str} {fuel : Nat} {fs fs' : FS} {src : Path} {j : AutoJob} {faults : List Fault}
    (hskip : j.skip = false ∨ fs j.srr = none)
    (hc : run (a.create.prog w fuel fs j.tmp src j.allowed) fs faults = (fs', .error .keyboard)) :
    run (a.prog w upper fuel fs src j) fs faults = (fs', .error .attrError) := by
  unfold AutoArgs.prog autoSrr
  have : (j.skip && (fs j.srr).isSome) = false := by
    rcases hskip with h | h
    · simp [h]
    · simp [h]
  rw [this]
  simp only [Bool.false_eq_true, if_false]
  obtain ⟨rest, k2⟩ := run_andThen_run hc
  rw [k2]
  rfl

/-- C82: an error of `create_srr` that is handled leaves no temporary file. -/
theorem auto_create_failed {a : AutoArgs} {w : World} {upper : Str → Str} {fuel : Nat} {fs fs' : FS} {src : Path} {j : AutoJob} {e : Err}
    (hskip : j.skip = false ∨ fs j.srr = none) (he : e = .envError ∨ e = .valueError ∨ e = .unicodeError)
    (hc : run (a.create.prog w fuel fs j.tmp src j.allowed) fs [] = (fs', .error e)) :
    run (a.prog w upper fuel fs src j) fs [] = (fs'.set j.tmp none, .error e) := by
  unfold AutoArgs.prog autoSrr
  have : (j.skip && (fs j.srr).isSome) = false := by
    rcases hskip with h | h
    · simp [h]
    · simp [h]
  rw [this]
  simp only [Bool.false_eq_true, if_false]
  rw [run_andThen_nil hc]
  dsimp only
  have hf : autoFailed j.tmp e = .act (.unlink j.tmp) (raise e) fun _ => raise e := by
    rcases he with rfl | rfl | rfl <;> rfl
  rw [hf]
  simp only [run, List.headD_nil, step]
  cases hx : fs' j.tmp with
  | none =>
    simp [raise, run]
    rw [FS.set_same _ _ _ hx]
  | some d => simp [raise, run]

/-! ### An example -/

set_option maxRecDepth 100000

/-- A release with two volumes; an SRR is there, and a file `a.nfo` is copied to the working folder and stored. -/
def autoJob : AutoJob where
  srr := str "/o/a.srr"
  tmp := str "/o/a.srr-x1.tmp"
  tmpRemove := str "/o/r1"
  tmpAdd := str "/o/a1"
  skip := false
  allowed := true
  work := .act (.create (str "/w/a.nfo")) (.act (.write (str "/w/a.nfo") [7, 7, 7]) (.done (.ok ())) raise) raise
  noFpcalc := false
  storeFiles := [str "/w/a.nfo"]
  news := [(str "a.nfo", .ok [7, 7, 7])]

/-- The arguments. -/
def autoArgs : AutoArgs := ⟨str "app", [str "/in/a.sfv"], str "/in", false, false⟩

/-- The disk, with an older SRR. -/
def autoDisk (p : Path) : Option Bytes := if p = str "/o/a.srr" then some [1, 2, 3] else inDisk p

theorem autoNames : JobNames autoJob (· = str "/w/a.nfo") where
  srrTmp := by decide
  srrRemove := by decide
  srrAdd := by decide
  tmpRemove := by decide
  tmpAdd := by decide
  work := ⟨rfl, ⟨rfl, trivial, fun _ => trivial⟩, fun _ => trivial⟩
  srrWork := by decide
  tmpWork := by decide

theorem autoRelease : Release inWorld 9 autoDisk [str "/in/a.sfv"] (str "/in") [str "/in/a.rar", str "/in/a.r00"]
    (fun p => if p = str "/in/a.rar" then exVol1 else exVol2) basename where
  found := gone_collect _ (by decide +kernel)
  good := by
    intro v hv
    simp only [List.mem_cons, List.not_mem_nil, or_false] at hv
    rcases hv with rfl | rfl
    · exact ⟨inUsual.1, ⟨[str "a.sfv", str "a.r00", str "a.rar", str "a.nfo"], by decide +kernel, by decide +kernel, by decide +kernel⟩,
        by rw [if_pos rfl]; decide +kernel, by rw [if_pos rfl]; exact exVol1_good, by decide +kernel⟩
    · exact ⟨inUsual.2, ⟨[str "a.sfv", str "a.r00", str "a.rar", str "a.nfo"], by decide +kernel, by decide +kernel, by decide +kernel⟩,
        by rw [if_neg (by decide +kernel)]; decide +kernel, by rw [if_neg (by decide +kernel)]; exact exVol2_good, by decide +kernel⟩

/-- What `create_srr` makes of it, and what is wanted. -/
def autoMade : Bytes := getOk (autoArgs.create.contents inWorld 9 autoDisk) []

theorem ok_of_isOk {α : Type} {r : Res α} {d : α} (h : r.isOk = true) : r = .ok (getOk r d) := by
  cases r with
  | ok x => rfl
  | error e => cases h

theorem autoRun : AutoRun autoArgs inWorld id 9 autoDisk autoJob (· = str "/w/a.nfo") [str "/in/a.rar", str "/in/a.r00"]
    (fun p => if p = str "/in/a.rar" then exVol1 else exVol2) basename autoMade (getOk (info inWorld.lower id autoMade) {}) where
  names := autoNames
  near := by decide
  release := autoRelease
  long := Or.inl (by simp)
  skip := Or.inl rfl
  allowed := rfl
  created := ok_of_isOk (by decide +kernel)
  readable := ok_of_isOk (by decide +kernel)
  free := by decide +kernel

theorem autoWorkOk : WorkOk autoJob autoDisk := by
  intro x
  refine ⟨FS.set (FS.set (FS.set autoDisk autoJob.tmp (some x)) (str "/w/a.nfo") (some [])) (str "/w/a.nfo") (some [7, 7, 7]), ?_, ?_⟩
  · unfold autoJob
    simp only [run, step, List.headD_nil, List.tail_nil, appendTo, FS.set_eq, Option.getD_some, List.nil_append]
  · rw [FS.set_ne _ _ (by decide), FS.set_ne _ _ (by decide), FS.set_ne _ _ (by decide)]
    decide +kernel

/-- The hypotheses of `auto_srr_made` hold: the older SRR is replaced by the wanted one, which stores the file first. -/
theorem auto_example : ∃ fs' c, run (autoArgs.prog inWorld id 9 autoDisk (str "/in") autoJob) autoDisk [] = (fs', .ok ()) ∧
    fs' (str "/o/a.srr") = some c ∧ c ≠ [1, 2, 3] ∧ fs' (str "/o/a.srr-x1.tmp") = none := by
  have hc : autoArgs.whole inWorld 9 autoDisk autoJob = .ok (getOk (autoArgs.whole inWorld 9 autoDisk autoJob) []) := ok_of_isOk (by decide +kernel)
  obtain ⟨fs', h1, h2, h3, _⟩ := auto_srr_made autoRun (str "/in") autoWorkOk rfl hc
  exact ⟨fs', _, h1, h2, by decide +kernel, h3⟩

/-- The hypotheses of `auto_srr_rebuilds` hold: both volumes come back from the SRR of the release. -/
theorem auto_rebuilt : ∃ srr fs2 reports, autoArgs.whole inWorld 9 autoDisk autoJob = .ok srr ∧ reconstruct exArgs (exDisk1 srr) = .ok (fs2, reports, true) ∧
    fs2 (str "/o/a.rar") = some exVol1 ∧ fs2 (str "/o/a.r00") = some exVol2 := by
  have hc : autoArgs.whole inWorld 9 autoDisk autoJob = .ok (getOk (autoArgs.whole inWorld 9 autoDisk autoJob) []) := ok_of_isOk (by decide +kernel)
  obtain ⟨f, g, n1, n2, n3, n4, hp⟩ := exParts
  have hp : ([str "/in/a.rar", str "/in/a.r00"].flatMap fun p => volumeParts (if p = str "/in/a.rar" then exVol1 else exVol2)) =
      [⟨0x8002, f, [1, 2]⟩, ⟨0x8001, g, [3, 4, 5]⟩] := by
    rw [← hp]
    simp only [exVols, List.flatMap_cons, List.flatMap_nil, if_true]
    rw [if_neg (by decide +kernel)]
  have hm := autoRun.created
  generalize getOk (autoArgs.whole inWorld 9 autoDisk autoJob) [] = srr at hc
  obtain ⟨fs2, reports, h1, h2, _⟩ := auto_srr_rebuilds (r := exArgs) (fs1 := exDisk1 srr) (ext := [str "/o/a.nfo"])
      (out := fun p => str "/o/" ++ basename p) autoRelease (by simp) hm hc (by simp [exDisk1, exArgs]) rfl
      (by
        intro _ x hx
        simp only [autoJob, List.mem_cons, List.not_mem_nil, or_false] at hx
        subst hx
        exact ⟨str "/o/a.nfo", by simp, by decide +kernel, by decide +kernel⟩)
      (by
        intro v hv
        simp only [List.mem_cons, List.not_mem_nil, or_false] at hv
        rcases hv with rfl | rfl
        · exact ⟨by decide +kernel, Or.inl ⟨by
          unfold exDisk1
          rw [if_neg (by decide +kernel), if_neg (by decide +kernel)], by decide +kernel⟩⟩
        · exact ⟨by decide +kernel, Or.inl ⟨by
          unfold exDisk1
          rw [if_neg (by decide +kernel), if_neg (by decide +kernel)], by decide +kernel⟩⟩)
      (by decide +kernel)
      (by
        rw [hp]
        refine Packs.starts (rest := [3, 4, 5]) (by simp) ?_ ?_
        · unfold SourceIs
          rw [if_neg (by dsimp only; decide)]
          refine ⟨str "x", [1, 2, 3, 4, 5], Or.inr ⟨rfl, by dsimp only; rw [n1]; decide +kernel⟩, by decide +kernel, ?_, Or.inl n3.symm, ?_⟩
          · unfold exDisk1
            rw [if_neg (by decide +kernel), if_pos (by decide +kernel)]
          · rw [if_pos n4]; rfl
        · dsimp only
          rw [n1, ← n2]
          exact Packs.continues (p := ⟨0x8001, g, [3, 4, 5]⟩) (rest := []) Packs.nil)
  have e1 : str "/o/" ++ basename (str "/in/a.rar") = str "/o/a.rar" := by decide +kernel
  have e2 : str "/o/" ++ basename (str "/in/a.r00") = str "/o/a.r00" := by decide +kernel
  have g1 := h2 (str "/in/a.rar") (by simp)
  have g2 := h2 (str "/in/a.r00") (by simp)
  rw [e1, if_pos rfl] at g1
  rw [e2, if_neg (by decide +kernel)] at g2
  exact ⟨srr, fs2, reports, hc, h1, g1, g2⟩

/-- The same release, but the work fails: something is left in the temporary file. -/
def autoFail : AutoJob := { autoJob with work := raise .envError }

theorem autoFailRun : AutoRun autoArgs inWorld id 9 autoDisk autoFail (· = str "/w/a.nfo") [str "/in/a.rar", str "/in/a.r00"]
    (fun p => if p = str "/in/a.rar" then exVol1 else exVol2) basename autoMade (getOk (info inWorld.lower id autoMade) {}) where
  names := ⟨by decide, by decide, by decide, by decide, by decide, trivial, by decide, by decide⟩
  near := by decide
  release := autoRelease
  long := Or.inl (by simp)
  skip := Or.inl rfl
  allowed := rfl
  created := ok_of_isOk (by decide +kernel)
  readable := ok_of_isOk (by decide +kernel)
  free := by decide +kernel

/-- C82, violation: the temporary file is left when a file can not be copied. -/
theorem auto_temp_left : ∃ fs' left, run (autoArgs.prog inWorld id 9 autoDisk (str "/in") autoFail) autoDisk [] = (fs', .error .envError) ∧
    autoDisk (str "/o/a.srr-x1.tmp") = none ∧ fs' (str "/o/a.srr-x1.tmp") = some left := by
  obtain ⟨fs', left, h1, h2⟩ := auto_work_left autoFailRun (str "/in") (e := .envError) fun x => ⟨_, rfl⟩
  exact ⟨fs', left, h1, by decide +kernel, h2⟩

/-- C82, violation: interrupted when the SRR header is written, nothing is cleaned up. -/
theorem auto_interrupt_example : run (autoArgs.prog inWorld id 9 autoDisk (str "/in") autoJob) autoDisk [none, some (.keyboard, 3)] =
    (FS.set autoDisk (str "/o/a.srr-x1.tmp") (some [0x69, 0x69, 0x69]), .error .attrError) ∧ autoDisk (str "/o/a.srr-x1.tmp") = none := by
  refine ⟨auto_interrupt_left (Or.inl rfl) ?_, by decide +kernel⟩
  have hh : mkSrrHeader autoArgs.create.app = .ok [0x69, 0x69, 0x69, 1, 0, 12, 0, 3, 0, 0x61, 0x70, 0x70] := by decide +kernel
  unfold CreateArgs.prog createProg
  rw [if_pos (show autoJob.allowed = true from rfl), hh]
  simp only [run, step, List.headD_cons, List.tail_cons, appendTo, FS.set_eq, Option.getD_some, List.nil_append, FS.set_set]
  rfl

end Rescene.Props
