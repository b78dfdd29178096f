import Verif.Lemmas.Faults
import Verif.Props.Edit
/-
C11 and C49: failures and crashes while an SRR is edited.
-/
namespace Rescene.Props
open Rescene Rescene.Spec

/-- C11 (partial): when adding files raises an exception - for any input, and with any
faults of the accesses that read files, make the temporary file or write to it - every
file is what it was before; no temporary file is left.  Missing: faults of closing,
deleting and renaming, for which the claim is false (`failed_add_can_leave_temp`). -/
theorem failed_add_changes_nothing_partial {srr tmp : Path} {fs fs' : FS} {file : Bytes}
    {storeFiles : List Str} {news : List NewFile} {faults : List Fault} {e : Err}
    (hne : srr ≠ tmp) (ht : fs tmp = none) (hs : fs srr = some file)
    (hf : FaultsIn Act.isIo (addProg srr tmp file storeFiles news) fs faults)
    (h : run (addProg srr tmp file storeFiles news) fs faults = (fs', .error e)) : fs' = fs := by
  have key : ∀ r, run (addProg srr tmp file storeFiles news) fs faults = r → (∃ e, r.2 = .error e) → r.1 = fs := by
    intro r hr he
    unfold addProg at hr hf
    simp only [run, FaultsIn, step_read] at hr hf
    obtain ⟨_, hf⟩ := hf
    cases hfl : faults.headD none with
    | some x => rw [hfl] at hr; simp [run] at hr; rw [← hr]
    | none =>
      rw [hfl] at hr hf
      simp only [Option.map_none] at hr hf
      cases hrd : readSrr file with
      | error e => rw [hrd] at hr; simp [run] at hr; rw [← hr]
      | ok blocks =>
        rw [hrd] at hr hf
        simp only at hr hf
        cases hdc : dupeCheck storeFiles blocks with
        | error e => rw [hdc] at hr; simp [run] at hr; rw [← hr]
        | ok u =>
          rw [hdc] at hr hf
          simp only [run, FaultsIn] at hr hf
          obtain ⟨_, hf⟩ := hf
          cases hfl2 : faults.tail.headD none with
          | some y => rw [hfl2] at hr; simp [step, run] at hr; rw [← hr]
          | none =>
            rw [hfl2] at hr hf
            simp only [step] at hr hf
            refine (run_writeChunks_faults (P := fun r' => r' = r → r.1 = fs) (fs0 := fs) (p := tmp) (c := [])
              ?_ ?_ hf) hr
            · -- the replacement: no faults are left, so it succeeds
              intro w fl _ hfk hrk
              exfalso
              obtain ⟨e, he⟩ := he
              unfold replaceSrr at hrk hfk
              simp only [run, FaultsIn, step_close, Act.isIo] at hrk hfk
              obtain ⟨n1, hfk⟩ := hfk
              have h1 : fl.headD none = none := by
                cases hx : fl.headD none with
                | none => rfl
                | some v => exact absurd (n1 (by rw [hx]; simp)) (by simp)
              rw [h1] at hrk hfk
              simp only [Option.map_none, run, FaultsIn, Act.isIo] at hrk hfk
              obtain ⟨n2, hfk⟩ := hfk
              have h2 : fl.tail.headD none = none := by
                cases hx : fl.tail.headD none with
                | none => rfl
                | some v => exact absurd (n2 (by rw [hx]; simp)) (by simp)
              rw [h2] at hrk hfk
              have e1 : (fs.set tmp (some ([] ++ w))) srr = some file := by rw [FS.set_ne _ _ hne, hs]
              simp only [step, e1, Option.isSome_some, if_true, run, FaultsIn, Act.isIo] at hrk hfk
              obtain ⟨n3, _⟩ := hfk
              have h3 : fl.tail.tail.headD none = none := by
                cases hx : fl.tail.tail.headD none with
                | none => rfl
                | some v => exact absurd (n3 (by rw [hx]; simp)) (by simp)
              rw [h3] at hrk
              have e2 : ((fs.set tmp (some ([] ++ w))).set srr none) tmp = some ([] ++ w) := by
                rw [FS.set_ne _ _ (Ne.symm hne), FS.set_eq]
              simp only [e2] at hrk
              rw [← hrk] at he
              simp at he
            · -- the exception handler
              intro e' w fl hfk hrk
              simp only [run, FaultsIn, step_close, Act.isIo] at hrk hfk
              obtain ⟨n1, hfk⟩ := hfk
              have h1 : fl.headD none = none := by
                cases hx : fl.headD none with
                | none => rfl
                | some v => exact absurd (n1 (by rw [hx]; simp)) (by simp)
              rw [h1] at hrk hfk
              simp only [Option.map_none, run, FaultsIn, Act.isIo] at hrk hfk
              obtain ⟨n2, _⟩ := hfk
              have h2 : fl.tail.headD none = none := by
                cases hx : fl.tail.headD none with
                | none => rfl
                | some v => exact absurd (n2 (by rw [hx]; simp)) (by simp)
              rw [h2] at hrk
              simp only [step, FS.set_eq, Option.isSome_some, if_true, FS.set_set, FS.set_same fs tmp none ht] at hrk
              rw [← hrk]
  have := key _ rfl ⟨e, by rw [h]⟩
  rw [h] at this
  exact this

/-- C49, adding: at every moment, whatever fails, the old SRR is in its place, or the
complete new one exists (in its place or as the temporary file). -/
theorem add_crash_safe {srr tmp : Path} {fs m : FS} {file : Bytes} {c adds : List Entry}
    {storeFiles : List Str} {news : List NewFile}
    (hne : srr ≠ tmp) (hs : fs srr = some file) (hc : Contents file c)
    (hadds : newEntries news = .ok adds)
    (hm : Moment (fun _ => true) (addProg srr tmp file storeFiles news) fs m) :
    m srr = some file ∨ m srr = some (entriesBytes (beforeRar c ++ adds ++ fromRar c)) ∨
      m tmp = some (entriesBytes (beforeRar c ++ adds ++ fromRar c)) := by
  obtain ⟨l, hg, hf, hl, htr⟩ := items_of_contents hc
  obtain ⟨items, hi, hie⟩ := newItems_entries hadds
  have hch := addChunks_false (pre := []) (goodItems_complete hg) hi
  simp only [List.nil_append, List.length_nil] at hch
  rw [hf] at hch
  have hnew : itemsBytes (l.takeWhile (fun x => x.1.btype ≠ 0x71) ++ items ++
      l.dropWhile (fun x => x.1.btype ≠ 0x71)) = entriesBytes (beforeRar c ++ adds ++ fromRar c) := by
    rw [← entriesBytes_map, List.map_append, List.map_append, takeWhile_toEntry, dropWhile_toEntry, hie, hl]
  rw [hnew] at hch
  unfold addProg at hm
  cases hm with
  | now => exact Or.inl hs
  | fail hst _ hm =>
    rw [step_read] at hst
    simp only [Prod.mk.injEq] at hst
    obtain ⟨rfl, _⟩ := hst
    exact Or.inl (by rw [moment_done hm]; exact hs)
  | step hst hm =>
    rw [step_read] at hst
    simp only [Prod.mk.injEq] at hst
    obtain ⟨rfl, _⟩ := hst
    rw [readSrr_layout hc.1 htr] at hm
    simp only at hm
    cases hdc : dupeCheck storeFiles ((layout 0 l).map (·.1)) with
    | error e =>
      rw [hdc] at hm
      exact Or.inl (by rw [moment_done hm]; exact hs)
    | ok u =>
      rw [hdc] at hm
      simp only at hm
      cases hm with
      | now => exact Or.inl hs
      | @fail _ _ _ _ f _ _ _ hst _ hm =>
        cases f with
        | none => simp [step] at hst
        | some y =>
          simp only [step, Prod.mk.injEq] at hst
          obtain ⟨rfl, _⟩ := hst
          exact Or.inl (by rw [moment_done hm]; exact hs)
      | step hst hm =>
        simp only [step, Prod.mk.injEq] at hst
        obtain ⟨rfl, _⟩ := hst
        rcases moment_writeChunks hm with h1 | ⟨w, h1, h2⟩ | ⟨e, w, h1⟩
        · exact Or.inl (by rw [h1 srr hne]; exact hs)
        · rw [hch] at h1
          simp only [Except.ok.injEq] at h1
          subst h1
          rw [List.nil_append] at h2
          rcases moment_replaceSrr hne (old := file) (by rw [FS.set_ne _ _ hne]; exact hs) (FS.set_eq _ _ _) h2 with
            g | g | g | ⟨e, _, g | g⟩
          · exact Or.inl g
          · exact Or.inr (Or.inl g)
          · exact Or.inr (Or.inr g)
          · rw [moment_done g]
            exact Or.inl (by rw [FS.set_ne _ _ hne]; exact hs)
          · rw [moment_done g]
            exact Or.inr (Or.inr (by rw [FS.set_ne _ _ (Ne.symm hne), FS.set_eq]))
        · have := moment_cleanup2 (fun _ => ⟨_, rfl⟩) h1 srr hne
          exact Or.inl (by rw [this, FS.set_ne _ _ hne]; exact hs)

/-- C49, renaming: the same. -/
theorem rename_crash_safe {srr tmp : Path} {fs m : FS} {file raw : Bytes} {c1 c2 : List Entry} {e : Entry}
    {name newName : Str} (hne : srr ≠ tmp) (hs : fs srr = some file)
    (hc : Contents file (c1 ++ e :: c2)) (he : e.isStored name) (hfirst : ∀ e' ∈ c1, ¬ e'.isStored name)
    (hnew : mkStored newName e.data.length = .ok raw)
    (hm : Moment (fun _ => true) (renameProg srr tmp file name newName) fs m) :
    m srr = some file ∨
      m srr = some (entriesBytes (c1 ++ ⟨0x6A, .stored e.data.length newName, raw, e.data⟩ :: c2)) ∨
      m tmp = some (entriesBytes (c1 ++ ⟨0x6A, .stored e.data.length newName, raw, e.data⟩ :: c2)) := by
  obtain ⟨l, hg, hf, hl, htr⟩ := items_of_contents hc
  rw [List.map_eq_append_iff] at hl
  obtain ⟨l1, l2', rfl, hl1, hl2'⟩ := hl
  rw [List.map_eq_cons_iff] at hl2'
  obtain ⟨x, l2, rfl, hx, hl2⟩ := hl2'
  subst hx
  obtain ⟨hxc, hxd⟩ := goodItems_complete hg x (by simp)
  have hb : x.1.btype = 0x6A := he.1
  obtain ⟨name', hk⟩ := dataOk_stored hxd hb
  have hname : name' = name := by
    obtain ⟨s, hs⟩ := he.2
    have h2' : x.1.kind = .stored s name := hs
    rw [hk] at h2'
    simp only [Kind.stored.injEq] at h2'
    exact h2'.2
  subst hname
  have hfind := findStored_items (a := 0) (l1 := l1) (l2 := l2) (x := x) (name := name')
    (fun y hy => hg.data y (by simp [hy])) ⟨hb, _, hk⟩
    (fun y hy => hfirst (toEntry y) (hl1 ▸ List.mem_map_of_mem hy))
  have hraw6 := complete_6a_len hxc hb
  have hx2 : (toEntry x).data = x.2 := rfl
  rw [hx2] at hnew
  have hfile : file = itemsBytes l1 ++ (x.1.raw ++ (x.2 ++ itemsBytes l2)) := by
    rw [← hf]; simp [itemBytes]
  have hch : chunksVal (renameChunks file (at_ x.1 (itemsBytes l1).length) newName) =
      .ok (entriesBytes (c1 ++ ⟨0x6A, .stored (toEntry x).data.length newName, raw, (toEntry x).data⟩ :: c2)) := by
    unfold renameChunks
    simp only [at_, hk, hnew]
    have e1 : file.take (itemsBytes l1).length = itemsBytes l1 := by rw [hfile, List.take_left]
    have e2 : file.drop ((itemsBytes l1).length + x.1.hsize) = x.2 ++ itemsBytes l2 := by
      rw [hfile, ← hraw6, ← List.append_assoc, ← List.length_append, List.drop_left]
    rw [e1, e2, ← hl1, ← hl2]
    simp [chunksVal, entriesBytes_map, hx2]
  generalize entriesBytes (c1 ++ ⟨0x6A, .stored (toEntry x).data.length newName, raw, (toEntry x).data⟩ :: c2) = new at hch ⊢
  rw [Nat.zero_add] at hfind
  unfold renameProg at hm
  cases hm with
  | now => exact Or.inl hs
  | fail hst _ hm =>
    rw [step_read] at hst
    simp only [Prod.mk.injEq] at hst
    obtain ⟨rfl, _⟩ := hst
    exact Or.inl (by rw [moment_done hm]; exact hs)
  | step hst hm =>
    rw [step_read] at hst
    simp only [Prod.mk.injEq] at hst
    obtain ⟨rfl, _⟩ := hst
    rw [readSrr_layout hc.1 htr] at hm
    simp only [hfind, mkStored_good hnew, Bool.true_eq_false, if_false] at hm
    simp only [at_, hk, hnew] at hm
    have hch' := hch
    simp only [at_, hk] at hch'
    cases hm with
    | now => exact Or.inl hs
    | @fail _ _ _ _ f _ _ _ hst _ hm =>
      cases f with
      | none => simp [step] at hst
      | some y =>
        simp only [step, Prod.mk.injEq] at hst
        obtain ⟨rfl, _⟩ := hst
        exact Or.inl (by rw [moment_done hm]; exact hs)
    | step hst hm =>
      simp only [step, Prod.mk.injEq] at hst
      obtain ⟨rfl, _⟩ := hst
      rcases moment_writeChunks hm with h1 | ⟨w, h1, h2⟩ | ⟨e, w, h1⟩
      · exact Or.inl (by rw [h1 srr hne]; exact hs)
      · rw [hch'] at h1
        simp only [Except.ok.injEq] at h1
        subst h1
        rw [List.nil_append] at h2
        rcases moment_replaceSrr hne (old := file) (by rw [FS.set_ne _ _ hne]; exact hs) (FS.set_eq _ _ _) h2 with
          g | g | g | ⟨e, _, g | g⟩
        · exact Or.inl g
        · exact Or.inr (Or.inl g)
        · exact Or.inr (Or.inr g)
        · rw [moment_done g]
          exact Or.inl (by rw [FS.set_ne _ _ hne]; exact hs)
        · rw [moment_done g]
          exact Or.inr (Or.inr (by rw [FS.set_ne _ _ (Ne.symm hne), FS.set_eq]))
      · rw [moment_done h1]
        exact Or.inl (by rw [FS.set_ne _ _ hne]; exact hs)

/-- C49, removing (partial): the same, as long as none of the accesses of the
replacement (close, remove, rename) raises an exception.  `remove_can_lose_srr` shows
that it is false otherwise. -/
theorem remove_crash_safe_partial {srr tmp : Path} {fs m : FS} {file : Bytes} {c : List Entry} {names : List Str}
    (hne : srr ≠ tmp) (hs : fs srr = some file) (hc : Contents file c)
    (hm : Moment Act.isIo (removeProg srr tmp file names) fs m) :
    m srr = some file ∨ m srr = some (entriesBytes (c.filter (fun e => !e.isOneOf names))) ∨
      m tmp = some (entriesBytes (c.filter (fun e => !e.isOneOf names))) := by
  obtain ⟨l, hg, hf, hl, htr⟩ := items_of_contents hc
  have hch := removeChunks_items (pre := []) (names := names) (goodItems_complete hg)
  simp only [List.nil_append, List.length_nil] at hch
  rw [hf, ← entriesBytes_map, filter_toEntry, hl] at hch
  have hra : readAll file = .ok ((layout 0 l).map (·.1)) := by simp [readAll, htr]
  generalize entriesBytes (c.filter (fun e => !e.isOneOf names)) = new at hch ⊢
  have hcl : ∀ {e w}, Moment Act.isIo (.act (.unlink tmp) (.done (.error e)) (fun e => .done (.error e)))
      (fs.set tmp (some w)) m → m srr = some file := by
    intro e w h
    rw [moment_cleanup (fun _ => ⟨_, rfl⟩) h srr hne, FS.set_ne _ _ hne, hs]
  unfold removeProg at hm
  cases hm with
  | now => exact Or.inl hs
  | fail hst _ hm =>
    rw [step_read] at hst
    simp only [Prod.mk.injEq] at hst
    obtain ⟨rfl, _⟩ := hst
    exact Or.inl (by rw [moment_done hm]; exact hs)
  | step hst hm =>
    rw [step_read] at hst
    simp only [Prod.mk.injEq] at hst
    obtain ⟨rfl, _⟩ := hst
    simp only [hc.1, ne_eq, not_true, if_false] at hm
    cases hm with
    | now => exact Or.inl hs
    | @fail _ _ _ _ f _ _ _ hst _ hm =>
      cases f with
      | none => simp [step] at hst
      | some y =>
        simp only [step, Prod.mk.injEq] at hst
        obtain ⟨rfl, _⟩ := hst
        exact Or.inl (by rw [moment_done hm]; exact hs)
    | step hst hm =>
      simp only [step, Prod.mk.injEq] at hst
      obtain ⟨rfl, _⟩ := hst
      cases hm with
      | now => exact Or.inl (by rw [FS.set_ne _ _ hne, hs])
      | fail hst _ hm =>
        rw [step_read] at hst
        simp only [Prod.mk.injEq] at hst
        obtain ⟨rfl, _⟩ := hst
        exact Or.inl (hcl hm)
      | step hst hm =>
        rw [step_read] at hst
        simp only [Prod.mk.injEq] at hst
        obtain ⟨rfl, _⟩ := hst
        rw [hra] at hm
        simp only at hm
        rcases moment_writeChunks hm with h1 | ⟨w, h1, h2⟩ | ⟨e, w, h1⟩
        · exact Or.inl (by rw [h1 srr hne]; exact hs)
        · rw [hch] at h1
          simp only [Except.ok.injEq] at h1
          subst h1
          rw [List.nil_append] at h2
          rcases moment_replaceSrr hne (old := file) (by rw [FS.set_ne _ _ hne]; exact hs) (FS.set_eq _ _ _) h2 with
            g | g | g | ⟨e, g, _⟩
          · exact Or.inl g
          · exact Or.inr (Or.inl g)
          · exact Or.inr (Or.inr g)
          · simp [Act.isIo] at g
        · exact Or.inl (hcl h1)

/-- Nothing fails for `n` accesses. -/
theorem run_writeChunks_none {src p : Path} {cs : List (Res Bytes)} {k : Prog} {h : Err → Prog} {fs : FS}
    {c w : Bytes} (fl : List Fault) (hw : chunksVal cs = .ok w) (hc : fs p = some c) :
    run (writeChunks src p cs k h) fs (List.replicate (2 * cs.length) none ++ fl) =
      run k (fs.set p (some (c ++ w))) fl := by
  induction cs generalizing fs c w with
  | nil =>
    simp [chunksVal] at hw; subst hw
    rw [List.append_nil, FS.set_same fs p _ hc]
    rfl
  | cons x cs ih =>
    cases x with
    | error e => simp [chunksVal] at hw
    | ok b =>
      simp only [chunksVal, bind_eq_ok] at hw
      obtain ⟨r, hr, hw⟩ := hw
      simp at hw; subst hw
      have e : List.replicate (2 * (Except.ok b :: cs : List (Res Bytes)).length) (none : Fault) ++ fl =
          none :: none :: (List.replicate (2 * cs.length) none ++ fl) := by
        rw [List.length_cons, Nat.mul_succ]; rfl
      rw [e]
      simp only [writeChunks, run, step, List.headD_cons, List.tail_cons, appendTo, hc, Option.getD_some]
      rw [ih hr (FS.set_eq _ _ _), FS.set_set, List.append_assoc]

/-- The code violates C11 when the last step fails: the SRR is gone from its place and
the new contents are left in the temporary file. -/
theorem failed_add_can_leave_temp {srr tmp : Path} {fs : FS} {file : Bytes} {c adds : List Entry}
    {storeFiles : List Str} {news : List NewFile}
    (hne : srr ≠ tmp) (hs : fs srr = some file) (hc : Contents file c)
    (hadds : newEntries news = .ok adds)
    (hdup : ∀ e ∈ c, ∀ name, e.isStored name → ∃ p, osFileNameSrr name = .ok p ∧ p ∉ storeFiles) :
    ∃ faults fs', run (addProg srr tmp file storeFiles news) fs faults = (fs', .error .envError) ∧
      fs' srr = none ∧ fs' tmp = some (entriesBytes (beforeRar c ++ adds ++ fromRar c)) := by
  obtain ⟨l, hg, hf, hl, htr⟩ := items_of_contents hc
  obtain ⟨items, hi, hie⟩ := newItems_entries hadds
  have hch := addChunks_false (pre := []) (goodItems_complete hg) hi
  simp only [List.nil_append, List.length_nil] at hch
  rw [hf] at hch
  have hnew : itemsBytes (l.takeWhile (fun x => x.1.btype ≠ 0x71) ++ items ++
      l.dropWhile (fun x => x.1.btype ≠ 0x71)) = entriesBytes (beforeRar c ++ adds ++ fromRar c) := by
    rw [← entriesBytes_map, List.map_append, List.map_append, takeWhile_toEntry, dropWhile_toEntry, hie, hl]
  rw [hnew] at hch
  have hdc : dupeCheck storeFiles ((layout 0 l).map (·.1)) = .ok () := by
    refine dupeCheck_ok hg.data ?_
    intro x hx name hb hk
    exact hdup (toEntry x) (hl ▸ List.mem_map_of_mem hx) name ⟨hb, _, hk⟩
  refine ⟨none :: none :: (List.replicate (2 * (addChunks file news false ((layout 0 l).map (·.1))).length) none ++
    [none, none, some (.envError, 0)]), (fs.set tmp (some (entriesBytes (beforeRar c ++ adds ++ fromRar c)))).set srr none,
    ?_, FS.set_eq _ _ _, by rw [FS.set_ne _ _ (Ne.symm hne), FS.set_eq]⟩
  unfold addProg
  simp only [run, step, List.headD_cons, List.tail_cons, readSrr_layout hc.1 htr, hdc]
  rw [run_writeChunks_none _ hch (FS.set_eq _ _ _), FS.set_set]
  have e1 : ∀ w, (fs.set tmp (some w)) srr = some file := by intro w; rw [FS.set_ne _ _ hne, hs]
  simp only [replaceSrr, run, step, List.headD_cons, List.tail_cons, e1, Option.isSome_some, if_true,
    List.nil_append]

/-- The code violates C49 when removing: if renaming the temporary file fails after the
SRR was deleted, the exception handler deletes the temporary file as well.  For every SRR
and all names there is a fault that leaves neither the old nor the new SRR. -/
theorem remove_can_lose_srr {srr tmp : Path} {fs : FS} {file : Bytes} {c : List Entry} {names : List Str}
    (hne : srr ≠ tmp) (ht : fs tmp = none) (hs : fs srr = some file) (hc : Contents file c) :
    ∃ faults, run (removeProg srr tmp file names) fs faults = (fs.set srr none, .error .envError) := by
  obtain ⟨l, hg, hf, hl, htr⟩ := items_of_contents hc
  have hch := removeChunks_items (pre := []) (names := names) (goodItems_complete hg)
  simp only [List.nil_append, List.length_nil] at hch
  rw [hf] at hch
  have hra : readAll file = .ok ((layout 0 l).map (·.1)) := by simp [readAll, htr]
  refine ⟨none :: none :: none :: (List.replicate
    (2 * (removeChunks file names ((layout 0 l).map (·.1))).length) none ++ [none, none, some (.envError, 0)]), ?_⟩
  unfold removeProg
  simp only [run, step, List.headD_cons, List.tail_cons, hc.1, ne_eq, not_true, if_false, hra]
  rw [run_writeChunks_none _ hch (FS.set_eq _ _ _), FS.set_set]
  have e1 : ∀ w, (fs.set tmp (some w)) srr = some file := by intro w; rw [FS.set_ne _ _ hne, hs]
  have e2 : ∀ w, ((fs.set tmp (some w)).set srr none) tmp = some w := by
    intro w; rw [FS.set_ne _ _ (Ne.symm hne), FS.set_eq]
  simp only [replaceSrr, run, step, List.headD_cons, List.tail_cons, e1, Option.isSome_some, if_true,
    List.headD_nil, e2]
  congr 1
  funext q
  simp only [FS.set]
  by_cases h1 : q = srr
  · simp [h1, hne]
  · by_cases h2 : q = tmp
    · subst h2; simp [Ne.symm hne, ht]
    · simp [h1, h2]

example : ∃ faults, run (removeProg (str "a.srr") (str "t") exSrr [str "a"])
    (FS.set (fun _ => none) (str "a.srr") (some exSrr)) faults =
      (FS.set (FS.set (fun _ => none) (str "a.srr") (some exSrr)) (str "a.srr") none, .error .envError) :=
  remove_can_lose_srr (by decide) (by decide) (by decide) exSrr_contents

/-- The second write fails half-way: nothing is left of it. -/
example : ∀ q, (run (addProg (str "a.srr") (str "t") exSrr [] [(str "n", .ok [1, 2])])
    (FS.set (fun _ => none) (str "a.srr") (some exSrr)) [none, none, none, some (.envError, 3)]).1 q =
      (FS.set (fun _ => none) (str "a.srr") (some exSrr)) q := by
  intro q
  have h : ∀ x, run (addProg (str "a.srr") (str "t") exSrr [] [(str "n", .ok [1, 2])])
    (FS.set (fun _ => none) (str "a.srr") (some exSrr)) [none, none, none, some (.envError, 3)] = x →
      x.2 = .error .envError → x.1 = (FS.set (fun _ => none) (str "a.srr") (some exSrr)) := by
    intro x hx hx2
    refine failed_add_changes_nothing_partial (e := .envError) (srr := str "a.srr") (tmp := str "t") (file := exSrr)
      (storeFiles := []) (news := [(str "n", .ok [1, 2])])
      (faults := [none, none, none, some (.envError, 3)]) (by decide) (by decide) (by decide) ?_ (by rw [hx, ← hx2])
    refine ⟨by decide, by decide, by decide, by decide, by decide, by decide, trivial⟩
  rw [h _ rfl (by rfl)]

end Rescene.Props
