import Verif.Spec.NzbTools
/-
C115: merging and renaming NZB files.
-/
namespace Rescene.Props
open Rescene Rescene.Spec

theorem readNzbs_ok {α : Type} (disk : NzbDir α) : ∀ (names : List Str) (all : List α), readNzbs disk names = some all →
    all = names.flatMap (filesIn disk) := by
  intro names
  induction names with
  | nil => intro all h; simp [readNzbs] at h; simp [h]
  | cons n t ih =>
    intro all h
    unfold readNzbs at h
    split at h
    · next l hl =>
      obtain ⟨x, hx, rfl⟩ := Option.map_eq_some_iff.mp h
      rw [ih x hx]
      simp [filesIn, hl]
    · cases h

theorem readNzbs_some {α : Type} (disk : NzbDir α) : ∀ (names : List Str), (∀ n ∈ names, ∃ l, disk n = some (.doc l)) →
    readNzbs disk names = some (names.flatMap (filesIn disk)) := by
  intro names
  induction names with
  | nil => intro _; rfl
  | cons n t ih =>
    intro h
    obtain ⟨l, hl⟩ := h n List.mem_cons_self
    unfold readNzbs
    rw [hl]
    simp only
    rw [ih fun x hx => h x (List.mem_cons_of_mem _ hx)]
    simp [filesIn, hl]

theorem removeStates_keep {α : Type} : ∀ (names : List Str) (d st : NzbDir α), st ∈ removeStates d names →
    ∀ k, k ∉ names → st k = d k := by
  intro names
  induction names with
  | nil => intro d st h; simp [removeStates] at h
  | cons n t ih =>
    intro d st h k hk
    have hkn : k ≠ n := fun e => hk (e ▸ List.mem_cons_self)
    have hkt : k ∉ t := fun e => hk (List.mem_cons_of_mem _ e)
    have hset : setKey d n none k = d k := by simp [setKey, hkn]
    rcases List.mem_cons.mp h with rfl | h
    · exact hset
    · rw [ih _ _ h k hkt, hset]

theorem removeStates_last {α : Type} : ∀ (names : List Str) (d st : NzbDir α), (removeStates d names).getLast? = some st →
    ∀ k, st k = if k ∈ names then none else d k := by
  intro names
  induction names with
  | nil => intro d st h; simp [removeStates] at h
  | cons n t ih =>
    intro d st h k
    unfold removeStates at h
    rw [List.getLast?_cons] at h
    cases ht : (removeStates (setKey d n none) t).getLast? with
    | none =>
      rw [ht] at h
      have ht' : t = [] := by
        have := List.getLast?_eq_none_iff.mp ht
        cases t with
        | nil => rfl
        | cons a b => simp [removeStates] at this
      subst ht'
      simp at h
      rw [← h]
      simp [setKey]
    | some y =>
      rw [ht] at h
      simp at h
      subst h
      rw [ih _ _ ht k]
      by_cases hk : k ∈ t
      · simp [hk]
      · by_cases hn : k = n <;> simp [hk, hn, setKey]

/-- The NZB files of a folder, shortest name first. -/
def nzbsOf (lower : Str → Str) (listdir : List Str) : List Str :=
  (listdir.filter (isNzbName lower)).mergeSort fun a b => decide (a.length ≤ b.length)

theorem nzbsOf_perm (lower : Str → Str) (listdir : List Str) : (nzbsOf lower listdir).Perm (listdir.filter (isNzbName lower)) :=
  List.mergeSort_perm _ _

/-- The first of them has the shortest name. -/
theorem nzbsOf_first (lower : Str → Str) (listdir : List Str) (first : Str) (t : List Str) (h : nzbsOf lower listdir = first :: t) :
    ∀ n ∈ nzbsOf lower listdir, first.length ≤ n.length := by
  have hs : (nzbsOf lower listdir).Pairwise fun a b => decide (a.length ≤ b.length) = true :=
    List.pairwise_mergeSort (le := fun a b : Str => decide (a.length ≤ b.length))
      (fun a b c h1 h2 => by simp at *; omega) (fun a b => by simp; omega) _
  rw [h] at hs ⊢
  intro n hn
  rcases List.mem_cons.mp hn with rfl | hn
  · omega
  · simpa using (List.pairwise_cons.mp hs).1 n hn

/-- C115: after a merge of two or more NZB files the one with the shortest name has the files of all of them, each once, and the
others are gone; nothing else is touched. -/
theorem merge_all {α : Type} (lower : Str → Str) (disk : NzbDir α) (listdir : List Str)
    (hdocs : ∀ n ∈ listdir, isNzbName lower n = true → ∃ l, disk n = some (.doc l))
    (hmany : 1 < (listdir.filter (isNzbName lower)).length) (hnodup : listdir.Nodup) :
    ∃ states final first all, nzbMerge lower disk listdir = some states ∧ states.getLast? = some final ∧
      first ∈ listdir ∧ isNzbName lower first = true ∧
      (∀ n ∈ listdir, isNzbName lower n = true → first.length ≤ n.length) ∧
      final first = some (.doc all) ∧
      all.Perm ((listdir.filter (isNzbName lower)).flatMap (filesIn disk)) ∧
      (∀ n ∈ listdir, isNzbName lower n = true → n ≠ first → final n = none) ∧
      (∀ n, ¬ (n ∈ listdir ∧ isNzbName lower n = true) → final n = disk n) := by
  have hperm := nzbsOf_perm lower listdir
  have hmem : ∀ n, n ∈ nzbsOf lower listdir ↔ n ∈ listdir ∧ isNzbName lower n = true := by
    intro n; rw [hperm.mem_iff, List.mem_filter]
  have hlen : 1 < (nzbsOf lower listdir).length := by rw [hperm.length_eq]; exact hmany
  have hnd : (nzbsOf lower listdir).Nodup := (hperm.nodup_iff).mpr (hnodup.filter _)
  match hl : nzbsOf lower listdir with
  | [] => rw [hl] at hlen; simp at hlen
  | [_] => rw [hl] at hlen; simp at hlen
  | first :: second :: t =>
    have hread := readNzbs_some disk (nzbsOf lower listdir) fun n hn => hdocs n ((hmem n).mp hn).1 ((hmem n).mp hn).2
    have hm : nzbMerge lower disk listdir = some
        (setKey disk first (some .empty) :: setKey disk first (some (.doc ((nzbsOf lower listdir).flatMap (filesIn disk)))) ::
          removeStates (setKey disk first (some (.doc ((nzbsOf lower listdir).flatMap (filesIn disk))))) (second :: t)) := by
      unfold nzbMerge
      show (match nzbsOf lower listdir with | first :: second :: t => _ | _ => _) = _
      rw [hl] at hread ⊢
      simp only
      rw [hread]
      rfl
    rw [hl] at hnd
    have hfirst : first ∉ second :: t := (List.nodup_cons.mp hnd).1
    obtain ⟨final, hfinal⟩ : ∃ final, (removeStates (setKey disk first (some (.doc ((nzbsOf lower listdir).flatMap (filesIn disk)))))
        (second :: t)).getLast? = some final := by
      cases h : (removeStates (setKey disk first (some (.doc ((nzbsOf lower listdir).flatMap (filesIn disk)))))
        (second :: t)).getLast? with
      | none => simp [removeStates] at h
      | some y => exact ⟨y, rfl⟩
    have hval := removeStates_last _ _ _ hfinal
    refine ⟨_, final, first, (nzbsOf lower listdir).flatMap (filesIn disk), hm, ?_, ?_, ?_, ?_, ?_, ?_, ?_, ?_⟩
    · rw [List.getLast?_cons, List.getLast?_cons, hfinal]; rfl
    · exact ((hmem first).mp (by rw [hl]; exact List.mem_cons_self)).1
    · exact ((hmem first).mp (by rw [hl]; exact List.mem_cons_self)).2
    · intro n hn h
      exact nzbsOf_first lower listdir first _ hl n ((hmem n).mpr ⟨hn, h⟩)
    · rw [hval, if_neg hfirst]; simp [setKey]
    · exact hperm.flatMap_right _
    · intro n hn h hne
      have : n ∈ nzbsOf lower listdir := (hmem n).mpr ⟨hn, h⟩
      rw [hl] at this
      rcases List.mem_cons.mp this with rfl | this
      · exact absurd rfl hne
      · rw [hval, if_pos this]
    · intro n hn
      have : n ∉ nzbsOf lower listdir := fun h => hn ((hmem n).mp h)
      rw [hl] at this
      have h1 : n ≠ first := fun e => this (e ▸ List.mem_cons_self)
      have h2 : n ∉ second :: t := fun e => this (List.mem_cons_of_mem _ e)
      rw [hval, if_neg h2]
      simp [setKey, h1]

/-- C115: a folder with one NZB or none is left alone. -/
theorem merge_alone {α : Type} (lower : Str → Str) (disk : NzbDir α) (listdir : List Str)
    (h : (listdir.filter (isNzbName lower)).length ≤ 1) : nzbMerge lower disk listdir = some [] := by
  have hlen : (nzbsOf lower listdir).length ≤ 1 := by rw [(nzbsOf_perm lower listdir).length_eq]; exact h
  unfold nzbMerge
  show (match nzbsOf lower listdir with | first :: second :: t => _ | _ => _) = _
  match hl : nzbsOf lower listdir with
  | [] => rfl
  | [_] => rfl
  | _ :: _ :: _ => rw [hl] at hlen; simp at hlen

/-- C115: wherever a merge is stopped, every file is still in some NZB of the folder.  Partial: not between opening the file and
writing it (`merge_crash_loses`). -/
theorem merge_crash_partial {α : Type} (lower : Str → Str) (disk : NzbDir α) (listdir : List Str) (hnodup : listdir.Nodup)
    (states : List (NzbDir α)) (h : nzbMerge lower disk listdir = some states) (st : NzbDir α) (hst : st ∈ states.drop 1)
    (f : α) (hf : InFolder disk f) : InFolder st f := by
  have hnd : (nzbsOf lower listdir).Nodup := ((nzbsOf_perm lower listdir).nodup_iff).mpr (hnodup.filter _)
  unfold nzbMerge at h
  change (match nzbsOf lower listdir with | first :: second :: t => _ | _ => _) = _ at h
  split at h
  · next first second t hl =>
    obtain ⟨all, hread, rfl⟩ := Option.map_eq_some_iff.mp h
    have hall := readNzbs_ok _ _ _ hread
    rw [hl] at hnd
    have hfirst : first ∉ second :: t := (List.nodup_cons.mp hnd).1
    have hkeep : ∀ k, k ∉ second :: t → st k = setKey disk first (some (.doc all)) k := by
      intro k hk
      simp only [List.drop_succ_cons, List.drop_zero] at hst
      rcases List.mem_cons.mp hst with rfl | hst
      · rfl
      · exact removeStates_keep _ _ _ hst k hk
    obtain ⟨name, hname⟩ := hf
    by_cases hin : name ∈ first :: second :: t
    · refine ⟨first, ?_⟩
      unfold filesIn
      rw [hkeep first hfirst]
      simp only [setKey, if_true]
      rw [hall]
      exact List.mem_flatMap.mpr ⟨name, hin, hname⟩
    · refine ⟨name, ?_⟩
      have h1 : name ≠ first := fun e => hin (e ▸ List.mem_cons_self)
      have h2 : name ∉ second :: t := fun e => hin (List.mem_cons_of_mem _ e)
      unfold filesIn
      rw [hkeep name h2]
      simpa [setKey, h1, filesIn] using hname
  · cases h
    simp at hst

/-- One NZB is moved: nothing is lost unless a file of the new name is there. -/
theorem renameStep_held {β : Type} (process : β → Option (Str × Bool)) (d : RenameDirs β) (n : Str)
    (hfree : ∀ x new m, d.inp n = some x → process x = some (new, m) → d.out m (new ++ str ".nzb") = none)
    (c : β) (h : Held d c) : Held (renameStep process d n) c := by
  unfold renameStep
  split
  · split
    · exact h
    · next x hx =>
      split
      · exact h
      · next new m hp =>
        have hfr := hfree x new m hx hp
        split
        · exact h
        · obtain ⟨k, hk⟩ := h
          by_cases hkn : d.inp k = some c ∧ k = n
          · obtain ⟨h1, rfl⟩ := hkn
            rw [hx] at h1
            cases h1
            refine ⟨new ++ str ".nzb", ?_⟩
            cases m <;> simp [RenameDirs.setOut, setKey]
          · refine ⟨k, ?_⟩
            rcases hk with hk | hk | hk
            · have : k ≠ n := fun e => hkn ⟨hk, e⟩
              left
              cases m <;> simp [setKey, this, hk]
            · right; left
              cases m
              · simpa [RenameDirs.setOut] using hk
              · have : k ≠ new ++ str ".nzb" := by
                  rintro rfl
                  simp [RenameDirs.out, hk] at hfr
                simp [RenameDirs.setOut, RenameDirs.out, setKey, this, hk]
            · right; right
              cases m
              · have : k ≠ new ++ str ".nzb" := by
                  rintro rfl
                  simp [RenameDirs.out, hk] at hfr
                simp [RenameDirs.setOut, RenameDirs.out, setKey, this, hk]
              · simpa [RenameDirs.setOut] using hk
  · exact h

theorem renameStep_inp {β : Type} (process : β → Option (Str × Bool)) (d : RenameDirs β) (n k : Str) (hk : k ≠ n) :
    (renameStep process d n).inp k = d.inp k := by
  unfold renameStep
  split
  · split
    · rfl
    · split
      · rfl
      · split
        · rfl
        · next m _ _ => cases m <;> simp [setKey, hk]
  · rfl

theorem renameStep_out {β : Type} (process : β → Option (Str × Bool)) (d : RenameDirs β) (n k : Str) (m : Bool)
    (h : d.out m k = none) (hk : ∀ x new, d.inp n = some x → process x = some (new, m) → k ≠ new ++ str ".nzb") :
    (renameStep process d n).out m k = none := by
  unfold renameStep
  split
  · split
    · exact h
    · next x hx =>
      split
      · exact h
      · next new m' hp =>
        split
        · exact h
        · by_cases he : m' = m
          · subst he
            have := hk x new hx hp
            cases m' <;> simp [RenameDirs.setOut, RenameDirs.out, setKey, this] <;> simpa [RenameDirs.out] using h
          · cases m' <;> cases m <;> first | exact absurd rfl he | simpa [RenameDirs.setOut, RenameDirs.out] using h
  · exact h

/-- C115: renaming the NZB files of a folder loses none of them.  Partial: when no two of them get the same new name and none of these
names is taken (otherwise `rename_loses`). -/
theorem rename_keeps_partial {β : Type} (process : β → Option (Str × Bool)) (listdir : List Str) : ∀ (d : RenameDirs β),
    listdir.Nodup →
    (∀ a ∈ listdir, ∀ b ∈ listdir, a ≠ b → ∀ x y, d.inp a = some x → d.inp b = some y → ∀ r, process x = some r → process y ≠ some r) →
    (∀ a ∈ listdir, ∀ x new m, d.inp a = some x → process x = some (new, m) → d.out m (new ++ str ".nzb") = none) →
    ∀ c, Held d c → Held (nzbRename process d listdir) c := by
  induction listdir with
  | nil => intro d _ _ _ c h; exact h
  | cons n t ih =>
    intro d hnd hdist hfree c h
    obtain ⟨hn, hnd'⟩ := List.nodup_cons.mp hnd
    have hinp : ∀ k ∈ t, (renameStep process d n).inp k = d.inp k :=
      fun k hk => renameStep_inp process d n k fun e => hn (e ▸ hk)
    refine ih (renameStep process d n) hnd' ?_ ?_ c
      (renameStep_held process d n (hfree n List.mem_cons_self) c h)
    · intro a ha b hb hab x y hx hy
      rw [hinp a ha] at hx
      rw [hinp b hb] at hy
      exact hdist a (List.mem_cons_of_mem _ ha) b (List.mem_cons_of_mem _ hb) hab x y hx hy
    · intro a ha x new m hx hp
      rw [hinp a ha] at hx
      refine renameStep_out process d n _ m (hfree a (List.mem_cons_of_mem _ ha) x new m hx hp) ?_
      intro y new' hy hp' e
      have hnew : new = new' := List.append_cancel_right e
      subst hnew
      exact hdist a (List.mem_cons_of_mem _ ha) n List.mem_cons_self (fun e => hn (e ▸ ha)) x y hx hy _ hp hp'

theorem renameStep_set {β : Type} (process : β → Option (Str × Bool)) (d : RenameDirs β) (n k : Str) (m : Bool)
    (hk : ∀ x new, d.inp n = some x → process x = some (new, m) → k ≠ new ++ str ".nzb") :
    (renameStep process d n).out m k = d.out m k := by
  unfold renameStep
  split
  · split
    · rfl
    · next x hx =>
      split
      · rfl
      · next new m' hp =>
        split
        · rfl
        · by_cases he : m' = m
          · subst he
            have := hk x new hx hp
            cases m' <;> simp [RenameDirs.setOut, RenameDirs.out, setKey, this]
          · cases m' <;> cases m <;> first | exact absurd rfl he | simp [RenameDirs.setOut, RenameDirs.out]
  · rfl

theorem rename_still {β : Type} (process : β → Option (Str × Bool)) (k : Str) (m : Bool) (listdir : List Str) : ∀ (d : RenameDirs β),
    listdir.Nodup →
    (∀ b ∈ listdir, ∀ y new, d.inp b = some y → process y = some (new, m) → k ≠ new ++ str ".nzb") →
    (nzbRename process d listdir).out m k = d.out m k ∧
      ∀ a, a ∉ listdir → (nzbRename process d listdir).inp a = d.inp a := by
  induction listdir with
  | nil => intro d _ _; exact ⟨rfl, fun _ _ => rfl⟩
  | cons n t ih =>
    intro d hnd hk
    obtain ⟨hn, hnd'⟩ := List.nodup_cons.mp hnd
    have hinp : ∀ b, b ≠ n → (renameStep process d n).inp b = d.inp b := fun b hb => renameStep_inp process d n b hb
    have ⟨h1, h2⟩ := ih (renameStep process d n) hnd' (by
      intro b hb y new hy hp
      rw [hinp b fun e => hn (e ▸ hb)] at hy
      exact hk b (List.mem_cons_of_mem _ hb) y new hy hp)
    refine ⟨?_, ?_⟩
    · show (nzbRename process (renameStep process d n) t).out m k = _
      rw [h1]
      exact renameStep_set process d n k m (hk n List.mem_cons_self)
    · intro a ha
      show (nzbRename process (renameStep process d n) t).inp a = _
      rw [h2 a fun e => ha (List.mem_cons_of_mem _ e)]
      exact hinp a fun e => ha (e ▸ List.mem_cons_self)

/-- C115: renaming puts an NZB in its folder under its new name.  Partial: when no two of them get the same new name, and neither folder has
a file of its old name (such an NZB is left where it is). -/
theorem rename_moves_partial {β : Type} (process : β → Option (Str × Bool)) (listdir : List Str) : ∀ (d : RenameDirs β),
    listdir.Nodup →
    (∀ a ∈ listdir, ∀ b ∈ listdir, a ≠ b → ∀ x y, d.inp a = some x → d.inp b = some y → ∀ r, process x = some r → process y ≠ some r) →
    ∀ a ∈ listdir, (str ".nzb").isSuffixOf a = true → ∀ x new m, d.inp a = some x → process x = some (new, m) → d.out m a = none →
    (∀ b ∈ listdir, b ≠ a → ∀ y new', d.inp b = some y → process y = some (new', m) → a ≠ new' ++ str ".nzb") →
    (nzbRename process d listdir).out m (new ++ str ".nzb") = some x ∧ (nzbRename process d listdir).inp a = none := by
  induction listdir with
  | nil => intro d _ _ a ha; simp at ha
  | cons n t ih =>
    intro d hnd hdist a ha hext x new m hx hp hout hclash
    obtain ⟨hn, hnd'⟩ := List.nodup_cons.mp hnd
    have hinp : ∀ b, b ≠ n → (renameStep process d n).inp b = d.inp b := fun b hb => renameStep_inp process d n b hb
    show (nzbRename process (renameStep process d n) t).out m (new ++ str ".nzb") = some x ∧
      (nzbRename process (renameStep process d n) t).inp a = none
    rcases List.mem_cons.mp ha with rfl | hat
    · have ⟨h1, h2⟩ := rename_still process (new ++ str ".nzb") m t (renameStep process d a) hnd' (by
        intro b hb y new' hy hp' e
        have hba : b ≠ a := fun e => hn (e ▸ hb)
        rw [hinp b hba] at hy
        have : new = new' := List.append_cancel_right e
        subst this
        exact hdist a List.mem_cons_self b (List.mem_cons_of_mem _ hb) hba.symm x y hx hy _ hp hp')
      rw [h1, h2 a hn]
      unfold renameStep
      rw [if_pos hext, hx]
      simp only
      rw [hp]
      simp only
      rw [hout]
      cases m <;> simp [RenameDirs.setOut, RenameDirs.out, setKey]
    · have han : a ≠ n := fun e => hn (e ▸ hat)
      refine ih (renameStep process d n) hnd' ?_ a hat hext x new m ?_ hp ?_ ?_
      · intro a' ha' b hb hab x y hx hy
        rw [hinp a' fun e => hn (e ▸ ha')] at hx
        rw [hinp b fun e => hn (e ▸ hb)] at hy
        exact hdist a' (List.mem_cons_of_mem _ ha') b (List.mem_cons_of_mem _ hb) hab x y hx hy
      · rw [hinp a han]; exact hx
      · rw [renameStep_set process d n a m fun y new' hy hp' => hclash n List.mem_cons_self han.symm y new' hy hp']
        exact hout
      · intro b hb hba y new' hy hp'
        rw [hinp b fun e => hn (e ▸ hb)] at hy
        exact hclash b (List.mem_cons_of_mem _ hb) hba y new' hy hp'

end Rescene.Props
