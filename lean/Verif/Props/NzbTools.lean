import Verif.Spec.NzbTools
/-
C115: splitting, merging and renaming NZB files.
-/
namespace Rescene.Props
open Rescene Rescene.Spec

/-- The release that a file is split off to. -/
def releaseOf {α : Type} (base : α → Option Str) (f : α) : Option Str := (base f).map cleanRel

theorem mem_lstrip {α : Type} (p : α → Bool) (s : List α) (x : α) (h : x ∈ lstrip p s) : x ∈ s := by
  exact (List.dropWhile_suffix p).mem h

theorem mem_rstrip {α : Type} (p : α → Bool) (s : List α) (x : α) (h : x ∈ rstrip p s) : x ∈ s := by
  have h := List.mem_reverse.mp h
  exact List.mem_reverse.mp ((List.dropWhile_suffix p).mem h)

theorem cleanRel_quote (b : Str) : 0x22 ∉ cleanRel b := by
  intro h
  have h := mem_lstrip _ _ _ (mem_rstrip _ _ _ h)
  obtain ⟨c, -, hc⟩ := List.mem_map.mp h
  split at hc
  · simp at hc
  · next hn => subst hc; exact hn (by decide)

theorem filter_quote (r : Str) (h : 0x22 ∉ r) : r.filter (· != 0x22) = r := by
  rw [List.filter_eq_self]
  intro a ha
  have : a ≠ 0x22 := fun e => h (e ▸ ha)
  simpa using this

theorem nzbName_inj (a b : Str) (ha : 0x22 ∉ a) (hb : 0x22 ∉ b) (h : nzbName a = nzbName b) : a = b := by
  unfold nzbName at h
  rw [filter_quote a ha, filter_quote b hb] at h
  exact List.append_cancel_right h

/-- Where the loop of the split is: the files so far are those written and those of the present release. -/
structure SplitAt {α : Type} (release : α → Option Str) (disk0 : NzbDir α) (s : Split α) (done pre run : List α) : Prop where
  parts : done.filter (fun f => (release f).isSome) = pre ++ run
  same : ∀ f ∈ run, release f = some s.cur
  most : ∀ f, pre.getLast? = some f → release f ≠ some s.cur
  dict : s.dict = fun x => if x = s.cur ∧ run ≠ [] then some run else none
  files : ∀ r, r ≠ [] → 0x22 ∉ r → filesIn s.disk (nzbName r) = filesIn disk0 (nzbName r) ++ postsOf release r pre
  docs : ∀ r, r ≠ [] → s.disk (nzbName r) ≠ some .empty
  none : s.disk (nzbName []) = none
  rest : ∀ name, (∀ f ∈ pre, ∀ r, release f = some r → name ≠ nzbName r) → s.disk name = disk0 name
  clean : 0x22 ∉ s.cur
  start : s.cur = [] ↔ run = []
  first : s.cur = [] → pre = []

theorem filesIn_set {α : Type} (d : NzbDir α) (k : Str) (v : Nzb α) (name : Str) :
    filesIn (setKey d k (some v)) name = if name = k then (match v with | .doc l => l | .empty => []) else filesIn d name := by
  unfold filesIn setKey
  by_cases h : name = k
  · simp only [h, if_true]; cases v <;> rfl
  · simp only [h, if_false]

theorem nzbName_nil (r : Str) (hr : r ≠ []) (hq : 0x22 ∉ r) : nzbName [] ≠ nzbName r :=
  fun e => hr (nzbName_inj [] r (by simp) hq e).symm

/-- Writing the present release behind what is there. -/
theorem splitWrite_at {α : Type} {release : α → Option Str} {disk0 : NzbDir α} {s : Split α} {done pre run : List α}
    (h : SplitAt release disk0 s done pre run) (hrun : run ≠ []) (old : List α) :
    splitWrite s old = ⟨setKey s.disk (nzbName s.cur) (some (.doc (old ++ run))), fun _ => none, s.cur⟩ := by
  have hd : s.dict s.cur = some run := by rw [h.dict]; simp [hrun]
  unfold splitWrite
  rw [hd]
  congr 1
  funext x
  unfold setKey
  rw [h.dict]
  by_cases hx : x = s.cur <;> simp [hx]

theorem splitFlush_at {α : Type} {release : α → Option Str} {disk0 : NzbDir α} {s : Split α} {done pre run : List α}
    (h : SplitAt release disk0 s done pre run) (r : Str) (hr : r ≠ []) (hq : 0x22 ∉ r) (hne : r ≠ s.cur) (f : α)
    (hf : release f = some r) :
    ∃ s', splitFlush s = some s' ∧ s'.dict = (fun _ => none) ∧
      SplitAt release disk0 ⟨s'.disk, setKey s'.dict r (some [f]), r⟩ (done ++ [f]) (pre ++ run) [f] := by
  have hparts : (done ++ [f]).filter (fun f => (release f).isSome) = (pre ++ run) ++ [f] := by
    rw [List.filter_append, h.parts]
    simp [hf]
  have hdict : setKey (fun _ => none : Str → Option (List α)) r (some [f]) = fun x => if x = r ∧ [f] ≠ [] then some [f] else none := by
    funext x; simp [setKey]
  by_cases hrun : run = []
  · have hc := h.start.mpr hrun
    have hpre := h.first hc
    have hd : s.dict = fun _ => none := by rw [h.dict]; funext x; simp [hrun]
    have hflush : splitFlush s = some s := by
      unfold splitFlush
      rw [hc, h.none]
      simp
    refine ⟨s, hflush, hd, ?_⟩
    subst hrun hpre
    rw [hd]
    exact {
      parts := hparts
      same := by intro g hg; simp at hg; rw [hg]; exact hf
      most := by intro g hg; simp at hg
      dict := hdict
      files := by simpa using h.files
      docs := h.docs
      none := h.none
      rest := by simpa using h.rest
      clean := hq
      start := by simp [hr]
      first := fun e => absurd e hr }
  · have hc : s.cur ≠ [] := fun e => hrun (h.start.mp e)
    have key : ∃ old, splitFlush s = some (splitWrite s old) ∧ filesIn s.disk (nzbName s.cur) = old := by
      unfold splitFlush filesIn
      cases hs : s.disk (nzbName s.cur) with
      | none => exact ⟨[], by simp [hc], rfl⟩
      | some v =>
        cases v with
        | empty => exact absurd hs (h.docs s.cur hc)
        | doc old => exact ⟨old, rfl, rfl⟩
    obtain ⟨old, hflush, hold⟩ := key
    have hw := splitWrite_at h hrun old
    refine ⟨splitWrite s old, hflush, by rw [hw], ?_⟩
    rw [hw]
    obtain ⟨g, t, hgt⟩ : ∃ g t, run = g :: t := by cases run with | nil => exact absurd rfl hrun | cons g t => exact ⟨g, t, rfl⟩
    exact {
      parts := hparts
      same := by intro g hg; simp at hg; rw [hg]; exact hf
      most := by
        intro g hg he
        have hg' : run.getLast? = some g := by
          rw [List.getLast?_append] at hg
          cases hl : run.getLast? with
          | none => exact absurd (List.getLast?_eq_none_iff.mp hl) hrun
          | some y => rw [hl] at hg; simpa using hg
        have := h.same g (List.mem_of_getLast? hg')
        rw [this] at he
        exact hne (Option.some.inj he).symm
      dict := hdict
      files := by
        intro r' hr' hq'
        rw [filesIn_set]
        unfold postsOf
        rw [List.filter_append]
        by_cases he : r' = s.cur
        · subst he
          simp only [if_true]
          have : run.filter (fun f => release f == some s.cur) = run := by
            rw [List.filter_eq_self]; intro a ha; simp [h.same a ha]
          rw [this, ← hold, h.files _ hr' hq', List.append_assoc]
          rfl
        · have hn : nzbName r' ≠ nzbName s.cur := fun e => he (nzbName_inj _ _ hq' h.clean e)
          simp only [hn, if_false]
          have : run.filter (fun f => release f == some r') = [] := by
            rw [List.filter_eq_nil_iff]
            intro a ha
            simp [h.same a ha]
            exact fun e => he e.symm
          rw [this, List.append_nil, h.files _ hr' hq']
          rfl
      docs := by
        intro r' hr'
        unfold setKey
        simp only
        split
        · simp
        · exact h.docs r' hr'
      none := by
        unfold setKey
        simp only
        rw [if_neg (nzbName_nil _ hc h.clean)]
        exact h.none
      rest := by
        intro name hname
        unfold setKey
        simp only
        rw [if_neg]
        · exact h.rest name fun f hf => hname f (List.mem_append_left _ hf)
        · exact hname g (List.mem_append_right _ (hgt ▸ List.mem_cons_self)) _ (h.same g (hgt ▸ List.mem_cons_self))
      clean := hq
      start := by simp [hr]
      first := fun e => absurd e hr }

theorem splitStep_at {α : Type} (base : α → Option Str) {disk0 : NzbDir α} {s : Split α} {done pre run : List α}
    (h : SplitAt (releaseOf base) disk0 s done pre run) (f : α) (hf : releaseOf base f ≠ some []) :
    ∃ s' pre' run', splitStep base s f = some s' ∧ SplitAt (releaseOf base) disk0 s' (done ++ [f]) pre' run' := by
  unfold splitStep
  cases hb : base f with
  | none =>
    refine ⟨s, pre, run, rfl, { h with parts := ?_ }⟩
    rw [List.filter_append, h.parts]
    simp [releaseOf, hb]
  | some b =>
    have hr : releaseOf base f = some (cleanRel b) := by simp [releaseOf, hb]
    have hne : cleanRel b ≠ [] := fun e => hf (by rw [hr, e])
    have hq := cleanRel_quote b
    simp only
    by_cases hc : cleanRel b = s.cur
    · rw [if_pos hc]
      have hrun : run ≠ [] := fun e => hne (hc.trans (h.start.mpr e))
      refine ⟨_, pre, run ++ [f], rfl, ?_⟩
      have hd : s.dict s.cur = some run := by rw [h.dict]; simp [hrun]
      refine { h with parts := ?_, same := ?_, dict := ?_, start := ?_ }
      · rw [List.filter_append, h.parts]; simp [hr]
      · intro g hg
        rcases List.mem_append.mp hg with hg | hg
        · exact h.same g hg
        · simp at hg; rw [hg, hr, hc]
      · simp only [hc, hd, Option.getD_some]
        funext x
        unfold setKey
        rw [h.dict]
        by_cases hx : x = s.cur <;> simp [hx]
      · simp [hc ▸ hne]
    · rw [if_neg hc]
      obtain ⟨s', hfl, hd, hat⟩ := splitFlush_at h _ hne hq hc f hr
      refine ⟨_, pre ++ run, [f], by rw [hfl]; rfl, ?_⟩
      simp only [hd, Option.getD_none, List.nil_append] at hat ⊢
      exact hat

theorem splitLoop_at {α : Type} (base : α → Option Str) {disk0 : NzbDir α} (fs : List α) : ∀ {s : Split α} {done pre run : List α},
    SplitAt (releaseOf base) disk0 s done pre run → (∀ f ∈ fs, releaseOf base f ≠ some []) →
    ∃ s' pre' run', splitLoop base s fs = some s' ∧ SplitAt (releaseOf base) disk0 s' (done ++ fs) pre' run' := by
  induction fs with
  | nil => intro s done pre run h _; exact ⟨s, pre, run, rfl, by simpa using h⟩
  | cons f t ih =>
    intro s done pre run h hf
    obtain ⟨s1, p1, r1, h1, hat⟩ := splitStep_at base h f (hf f List.mem_cons_self)
    obtain ⟨s2, p2, r2, h2, hat2⟩ := ih hat fun g hg => hf g (List.mem_cons_of_mem _ hg)
    refine ⟨s2, p2, r2, ?_, by simpa using hat2⟩
    show (splitStep base s f).bind _ = _
    rw [h1]
    exact h2

/-- The start of the split. -/
theorem splitStart {α : Type} (base : α → Option Str) (disk0 : NzbDir α) (hnil : disk0 (str ".nzb") = none)
    (hdocs : ∀ r, r ≠ [] → disk0 (nzbName r) ≠ some .empty) :
    SplitAt (releaseOf base) disk0 ⟨disk0, fun _ => none, []⟩ [] [] [] where
  parts := rfl
  same := by simp
  most := by simp
  dict := by simp
  files := by intro r _ _; simp [postsOf]
  docs := hdocs
  none := hnil
  rest := fun _ _ => rfl
  clean := by simp
  start := by simp
  first := fun _ => rfl

/-- What the split of an NZB gives, whatever there is: every release but the last has its files behind those that its NZB already had; the
last has the files at the end of the NZB only. -/
theorem split_result {α : Type} (base : α → Option Str) (disk0 : NzbDir α) (fs : List α)
    (hnil : disk0 (str ".nzb") = none) (hdocs : ∀ r, r ≠ [] → disk0 (nzbName r) ≠ some .empty)
    (hrel : ∀ f ∈ fs, releaseOf base f ≠ some []) (hsome : ∃ f ∈ fs, (releaseOf base f).isSome) :
    ∃ disk pre run last, nzbSplit base disk0 fs = some disk ∧
      fs.filter (fun f => (releaseOf base f).isSome) = pre ++ run ∧ run ≠ [] ∧ last ≠ [] ∧ 0x22 ∉ last ∧
      (∀ f ∈ run, releaseOf base f = some last) ∧ (∀ f, pre.getLast? = some f → releaseOf base f ≠ some last) ∧
      disk (nzbName last) = some (.doc run) ∧
      (∀ r, r ≠ [] → 0x22 ∉ r → r ≠ last →
        filesIn disk (nzbName r) = filesIn disk0 (nzbName r) ++ postsOf (releaseOf base) r fs) ∧
      (∀ name, (∀ f ∈ fs, ∀ r, releaseOf base f = some r → name ≠ nzbName r) → disk name = disk0 name) := by
  obtain ⟨s, pre, run, hl, h⟩ := splitLoop_at base fs (splitStart base disk0 hnil hdocs) hrel
  rw [List.nil_append] at h
  have hrun : run ≠ [] := by
    intro e
    have hp := h.first (h.start.mpr e)
    obtain ⟨f, hf, hs⟩ := hsome
    have : f ∈ fs.filter (fun f => (releaseOf base f).isSome) := List.mem_filter.mpr ⟨hf, hs⟩
    rw [h.parts, e, hp] at this
    simp at this
  have hw := splitWrite_at h hrun []
  have hc : s.cur ≠ [] := fun e => hrun (h.start.mp e)
  have hof : ∀ r, postsOf (releaseOf base) r fs = postsOf (releaseOf base) r pre ++ postsOf (releaseOf base) r run := by
    intro r
    unfold postsOf
    rw [← List.filter_append, ← h.parts, List.filter_filter]
    congr 1
    funext f
    cases hb : releaseOf base f <;> simp
  refine ⟨_, pre, run, s.cur, by unfold nzbSplit; rw [hl]; rfl, h.parts, hrun, hc, h.clean, h.same, h.most, ?_, ?_, ?_⟩
  · rw [hw]; simp [setKey]
  · intro r hr hq hne
    have hn : nzbName r ≠ nzbName s.cur := fun e => hne (nzbName_inj _ _ hq h.clean e)
    rw [hw, filesIn_set, if_neg hn, h.files r hr hq, hof]
    have : postsOf (releaseOf base) r run = [] := by
      unfold postsOf
      rw [List.filter_eq_nil_iff]
      intro a ha
      simp [h.same a ha]
      exact fun e => hne e.symm
    rw [this, List.append_nil]
  · intro name hname
    have hmem : ∀ f, f ∈ pre ++ run → f ∈ fs := fun f hf => by
      rw [← h.parts] at hf; exact (List.mem_filter.mp hf).1
    obtain ⟨g, t, hgt⟩ : ∃ g t, run = g :: t := by cases run with | nil => exact absurd rfl hrun | cons g t => exact ⟨g, t, rfl⟩
    have hg : g ∈ run := hgt ▸ List.mem_cons_self
    rw [hw]
    simp only [setKey]
    rw [if_neg (hname g (hmem g (List.mem_append_right _ hg)) _ (h.same g hg))]
    exact h.rest name fun f hf => hname f (hmem f (List.mem_append_left _ hf))

/-- C115: after a split every release has all its files, in order and behind those that its NZB already had, and nothing else is touched.
Partial: when the files of the last release come together and it had no NZB before (otherwise see `split_loses` and
`split_loses_existing`), and no name of a release is empty (`split_loses_nameless`). -/
theorem split_keeps_partial {α : Type} (base : α → Option Str) (disk0 : NzbDir α) (before run : List α) (last : Str)
    (hnil : disk0 (str ".nzb") = none) (hdocs : ∀ r, r ≠ [] → disk0 (nzbName r) ≠ some .empty)
    (hrel : ∀ f ∈ before ++ run, releaseOf base f ≠ some [])
    (hrun : ∀ f ∈ run, releaseOf base f = some last) (hne : run ≠ [])
    (hbefore : ∀ f ∈ before, releaseOf base f ≠ some last) (hnew : disk0 (nzbName last) = none) :
    ∃ disk, nzbSplit base disk0 (before ++ run) = some disk ∧
      (∀ r, r ≠ [] → 0x22 ∉ r →
        filesIn disk (nzbName r) = filesIn disk0 (nzbName r) ++ postsOf (releaseOf base) r (before ++ run)) ∧
      (∀ name, (∀ f ∈ before ++ run, ∀ r, releaseOf base f = some r → name ≠ nzbName r) → disk name = disk0 name) := by
  have hsome : ∃ f ∈ before ++ run, (releaseOf base f).isSome := by
    obtain ⟨g, t, hgt⟩ : ∃ g t, run = g :: t := by cases run with | nil => exact absurd rfl hne | cons g t => exact ⟨g, t, rfl⟩
    have hg : g ∈ run := hgt ▸ List.mem_cons_self
    exact ⟨g, List.mem_append_right _ hg, by simp [hrun g hg]⟩
  obtain ⟨disk, pre, run', last', hs, hparts, hrn, hln, hlq, hsame, hmost, hlast, hfiles, hrest⟩ :=
    split_result base disk0 _ hnil hdocs hrel hsome
  have hrunf : run.filter (fun f => (releaseOf base f).isSome) = run := by
    rw [List.filter_eq_self]; intro a ha; simp [hrun a ha]
  rw [List.filter_append, hrunf] at hparts
  -- the last file belongs to both
  have hl1 : ∃ z, run.getLast? = some z := by
    cases h : run.getLast? with
    | none => exact absurd (List.getLast?_eq_none_iff.mp h) hne
    | some z => exact ⟨z, rfl⟩
  obtain ⟨z, hz⟩ := hl1
  have hl2 : run'.getLast? = some z := by
    have := congrArg List.getLast? hparts
    rw [List.getLast?_append, List.getLast?_append, hz] at this
    cases h : run'.getLast? with
    | none => exact absurd (List.getLast?_eq_none_iff.mp h) hrn
    | some y => rw [h] at this; simpa using this.symm
  have hll : last' = last := by
    have h1 := hsame z (List.mem_of_getLast? hl2)
    have h2 := hrun z (List.mem_of_getLast? hz)
    rw [h1] at h2
    exact Option.some.inj h2
  subst hll
  refine ⟨disk, hs, ?_, hrest⟩
  intro r hr hq
  by_cases he : r = last'
  · subst he
    have hall : postsOf (releaseOf base) r (before ++ run) = run := by
      unfold postsOf
      rw [List.filter_append]
      have h1 : before.filter (fun f => releaseOf base f == some r) = [] := by
        rw [List.filter_eq_nil_iff]; intro a ha; simpa using hbefore a ha
      have h2 : run.filter (fun f => releaseOf base f == some r) = run := by
        rw [List.filter_eq_self]; intro a ha; simp [hrun a ha]
      rw [h1, h2, List.nil_append]
    have hrr : run' = run := by
      have h1 := congrArg (List.filter fun f => releaseOf base f == some r) hparts
      rw [List.filter_append, List.filter_append, List.filter_filter] at h1
      have ha : before.filter (fun f => (releaseOf base f == some r) && (releaseOf base f).isSome) = [] := by
        rw [List.filter_eq_nil_iff]; intro a ha
        have := hbefore a ha
        simp [this]
      have hb : run.filter (fun f => releaseOf base f == some r) = run := by
        rw [List.filter_eq_self]; intro a ha; simp [hrun a ha]
      have hc : run'.filter (fun f => releaseOf base f == some r) = run' := by
        rw [List.filter_eq_self]; intro a ha; simp [hsame a ha]
      have hd : pre.filter (fun f => releaseOf base f == some r) = [] := by
        rw [List.filter_eq_nil_iff]
        intro a ha he
        have he : releaseOf base a = some r := by simpa using he
        -- a file of the release in front of the run would leave the run behind it
        rcases List.append_eq_append_iff.mp hparts with ⟨c, hc1, hc2⟩ | ⟨c, hc1, hc2⟩
        · rw [hc1] at ha
          rcases List.mem_append.mp ha with ha | ha
          · exact hbefore a (List.mem_filter.mp ha).1 he
          · cases hcl : c.getLast? with
            | none => rw [List.getLast?_eq_none_iff.mp hcl] at ha; simp at ha
            | some y =>
              refine hmost y (by rw [hc1, List.getLast?_append, hcl]; rfl) (hrun y ?_)
              rw [hc2]; exact List.mem_append_left _ (List.mem_of_getLast? hcl)
        · have : a ∈ before.filter (fun f => (releaseOf base f).isSome) := by
            rw [hc1]; exact List.mem_append_left _ ha
          exact hbefore a (List.mem_filter.mp this).1 he
      rw [ha, hb, hc, hd, List.nil_append, List.nil_append] at h1
      exact h1.symm
    rw [hall]
    unfold filesIn
    rw [hlast, hnew, hrr]
    rfl
  · exact hfiles r hr hq he

/-- C115: when the NZB of the last release is already there (from before, or because other releases come between its files), all that it
had is gone: it has the files at the end only. -/
theorem split_overwrites {α : Type} (base : α → Option Str) (disk0 : NzbDir α) (before run : List α) (last : Str) (g : α)
    (hnil : disk0 (str ".nzb") = none) (hdocs : ∀ r, r ≠ [] → disk0 (nzbName r) ≠ some .empty)
    (hrel : ∀ f ∈ before ++ run, releaseOf base f ≠ some []) (hb : ∀ f ∈ before, (releaseOf base f).isSome)
    (hrun : ∀ f ∈ run, releaseOf base f = some last) (hne : run ≠ [])
    (hg : before.getLast? = some g) (hgl : releaseOf base g ≠ some last) :
    ∃ disk, nzbSplit base disk0 (before ++ run) = some disk ∧ disk (nzbName last) = some (.doc run) := by
  have hsome : ∃ f ∈ before ++ run, (releaseOf base f).isSome :=
    ⟨g, List.mem_append_left _ (List.mem_of_getLast? hg), hb g (List.mem_of_getLast? hg)⟩
  obtain ⟨disk, pre, run', last', hs, hparts, hrn, hln, hlq, hsame, hmost, hlast, hfiles, hrest⟩ :=
    split_result base disk0 _ hnil hdocs hrel hsome
  have hall : (before ++ run).filter (fun f => (releaseOf base f).isSome) = before ++ run := by
    rw [List.filter_eq_self]
    intro a ha
    rcases List.mem_append.mp ha with ha | ha
    · exact hb a ha
    · simp [hrun a ha]
  rw [hall] at hparts
  obtain ⟨z, hz⟩ : ∃ z, run.getLast? = some z := by
    cases h : run.getLast? with
    | none => exact absurd (List.getLast?_eq_none_iff.mp h) hne
    | some z => exact ⟨z, rfl⟩
  have hl2 : run'.getLast? = some z := by
    have := congrArg List.getLast? hparts
    rw [List.getLast?_append, List.getLast?_append, hz] at this
    cases h : run'.getLast? with
    | none => exact absurd (List.getLast?_eq_none_iff.mp h) hrn
    | some y => rw [h] at this; simpa using this.symm
  have hll : last' = last := by
    have h1 := hsame z (List.mem_of_getLast? hl2)
    have h2 := hrun z (List.mem_of_getLast? hz)
    rw [h1] at h2
    exact Option.some.inj h2
  subst hll
  refine ⟨disk, hs, ?_⟩
  rw [hlast]
  rcases List.append_eq_append_iff.mp hparts with ⟨c, hc1, hc2⟩ | ⟨c, hc1, hc2⟩
  · cases hcl : c.getLast? with
    | none =>
      rw [List.getLast?_eq_none_iff.mp hcl] at hc2
      rw [hc2, List.nil_append]
    | some y =>
      refine absurd (hrun y ?_) (hmost y (by rw [hc1, List.getLast?_append, hcl]; rfl))
      rw [hc2]; exact List.mem_append_left _ (List.mem_of_getLast? hcl)
  · cases hcl : c.getLast? with
    | none =>
      rw [List.getLast?_eq_none_iff.mp hcl] at hc2
      rw [hc2, List.nil_append]
    | some y =>
      have : before.getLast? = some y := by rw [hc1, List.getLast?_append, hcl]; rfl
      rw [hg] at this
      obtain rfl := Option.some.inj this
      refine absurd (hsame g ?_) hgl
      rw [hc2]; exact List.mem_append_left _ (List.mem_of_getLast? hcl)

end Rescene.Props
