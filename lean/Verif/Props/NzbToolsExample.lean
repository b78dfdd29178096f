import Verif.Props.NzbTools
import Verif.Props.NzbMerge
import Verif.Spec.Volumes
/-
C115: examples, and where files are lost.
-/
namespace Rescene.Props
open Rescene Rescene.Spec

/-- Files of an NZB: the name found for the release, and a number. -/
abbrev ExPost := Option String × Nat

def exBase (f : ExPost) : Option Str := f.1.map str

def exLowerN (s : Str) : Str := s.map lowerA

/-- An output folder with the NZB of one release. -/
def exNzbOut : NzbDir ExPost := fun n => if n = str "Old-GRP.nzb" then some (.doc [(some "Old-GRP", 0)]) else none

/-- An empty output folder. -/
def exNone : NzbDir ExPost := fun _ => none

/-- The hypotheses of `split_keeps_partial` hold: two releases that take turns, one of which already has an NZB, a file without a
name and a last release. -/
example :=
  split_keeps_partial exBase exNzbOut
    [(some "Old-GRP", 1), (some "_A:B-GRP", 2), (none, 3), (some "Old-GRP", 4), (some "_A:B-GRP", 5)] [(some "Z-GRP", 6)] (str "Z-GRP")
    (by decide) (by intro r _; unfold exNzbOut; split <;> simp) (by decide +kernel) (by decide +kernel) (by decide) (by decide +kernel) (by decide +kernel)

/-- And the releases have three, two and one files then. -/
example : (nzbSplit exBase exNzbOut [(some "Old-GRP", 1), (some "_A:B-GRP", 2), (none, 3), (some "Old-GRP", 4), (some "_A:B-GRP", 5), (some "Z-GRP", 6)]).map (fun d =>
    [filesIn d (str "Old-GRP.nzb"), filesIn d (str "A_B-GRP.nzb"), filesIn d (str "Z-GRP.nzb")].map fun l => l.map (·.2)) =
    some [[0, 1, 4], [2, 5], [6]] := by
  decide +kernel

/-- C115 is false when the files of the last release do not come together: the first is in no NZB afterwards. -/
theorem split_loses : ∃ disk, nzbSplit exBase exNone [(some "A-GRP", 1), (some "B-GRP", 2), (some "A-GRP", 3)] = some disk ∧
    disk (str "A-GRP.nzb") = some (.doc [(some "A-GRP", 3)]) ∧ ¬ InFolder disk (some "A-GRP", 1) := by
  obtain ⟨disk, hd, hl⟩ := split_overwrites exBase exNone [(some "A-GRP", 1), (some "B-GRP", 2)] [(some "A-GRP", 3)] (str "A-GRP")
    (some "B-GRP", 2) rfl (by intro r _; simp [exNone]) (by decide +kernel) (by decide +kernel) (by decide +kernel) (by decide) rfl
    (by decide +kernel)
  obtain ⟨disk', pre, run, last, hs, hparts, hrn, hln, hlq, hsame, hmost, hlast, hfiles, hrest⟩ :=
    split_result exBase exNone ([(some "A-GRP", 1), (some "B-GRP", 2)] ++ [(some "A-GRP", 3)]) rfl (by intro r _; simp [exNone])
      (by decide +kernel) ⟨(some "A-GRP", 1), by decide, by decide +kernel⟩
  rw [hd] at hs
  cases hs
  have hA : disk (str "A-GRP.nzb") = some (.doc [(some "A-GRP", 3)]) := by
    rw [← hl]; congr 1
  refine ⟨disk, hd, hA, ?_⟩
  rintro ⟨name, hname⟩
  have hB := hfiles (str "B-GRP") (by decide) (by decide)
  by_cases h1 : name = str "A-GRP.nzb"
  · subst h1
    simp [filesIn, hA] at hname
  · by_cases h2 : name = str "B-GRP.nzb"
    · subst h2
      have hl : str "B-GRP" ≠ last := by
        rintro rfl
        have : nzbSplit exBase exNone [(some "A-GRP", 1), (some "B-GRP", 2), (some "A-GRP", 3)] = some disk := hd
        have h3 : disk (str "B-GRP.nzb") = some (.doc [(some "B-GRP", 2)]) := by
          have h4 : (nzbSplit exBase exNone [(some "A-GRP", 1), (some "B-GRP", 2), (some "A-GRP", 3)]).bind (fun d => d (str "B-GRP.nzb")) =
            some (.doc [(some "B-GRP", 2)]) := by decide +kernel
          rw [this] at h4
          exact h4
        rw [filesIn, h3] at hname
        simp at hname
      have hB' := hB hl
      have e : nzbName (str "B-GRP") = str "B-GRP.nzb" := by decide +kernel
      rw [e] at hB'
      rw [hB'] at hname
      revert hname
      decide +kernel
    · have : disk name = exNone name := hrest name (by
        intro f hf r hr
        simp only [List.cons_append, List.nil_append, List.mem_cons, List.not_mem_nil, or_false] at hf
        rcases hf with rfl | rfl | rfl
        · have e : releaseOf exBase (some "A-GRP", 1) = some (str "A-GRP") := by decide +kernel
          rw [e] at hr; cases hr; exact fun h => h1 (h.trans (by decide +kernel))
        · have e : releaseOf exBase (some "B-GRP", 2) = some (str "B-GRP") := by decide +kernel
          rw [e] at hr; cases hr; exact fun h => h2 (h.trans (by decide +kernel))
        · have e : releaseOf exBase (some "A-GRP", 3) = some (str "A-GRP") := by decide +kernel
          rw [e] at hr; cases hr; exact fun h => h1 (h.trans (by decide +kernel)))
      simp [filesIn, this, exNone] at hname

/-- C115 is false when the last release already has an NZB: what it had is gone. -/
theorem split_loses_existing : (nzbSplit exBase exNzbOut [(some "Old-GRP", 1)]).bind (fun d => d (str "Old-GRP.nzb")) =
    some (.doc [(some "Old-GRP", 1)]) := by
  decide +kernel

/-- C115 is false for names that have nothing but such characters: the file is in no NZB (none is made for it). -/
theorem split_loses_nameless : (nzbSplit exBase exNone [(some "__", 1), (some "B-GRP", 2)]).map
    (fun d => (d (str ".nzb"), d (str "B-GRP.nzb"))) = some (none, some (.doc [(some "B-GRP", 2)])) := by
  decide +kernel

/-- An NZB without a usable file gives an empty file. -/
theorem split_nothing_empty : (nzbSplit exBase exNone [(none, 1)]).bind (fun d => d (str ".nzb")) = some .empty := by decide +kernel

/-- A folder with two parts of an NZB and a text file. -/
def exSplitUp : NzbDir ExPost := fun n =>
  if n = str "release.part2.NZB" then some (.doc [(none, 2)]) else if n = str "release.nzb" then some (.doc [(none, 1)]) else none

/-- The hypotheses of `merge_all` hold. -/
example :=
  merge_all exLowerN exSplitUp [str "release.part2.NZB", str "a.txt", str "release.nzb"]
    (by
      intro n hn h
      simp only [List.mem_cons, List.not_mem_nil, or_false] at hn
      rcases hn with rfl | rfl | rfl
      · exact ⟨_, rfl⟩
      · exact absurd h (by decide +kernel)
      · exact ⟨[(none, 1)], by decide +kernel⟩)
    (by decide +kernel) (by decide +kernel)

/-- C115 is false for a merge that is stopped before it has written: the files of the first NZB are nowhere. -/
theorem merge_crash_loses : ∃ states st, nzbMerge exLowerN exSplitUp [str "release.part2.NZB", str "a.txt", str "release.nzb"] = some states ∧
    st ∈ states ∧ InFolder exSplitUp (none, 1) ∧ ¬ InFolder st (none, 1) := by
  refine ⟨[setKey exSplitUp (str "release.nzb") (some .empty), setKey exSplitUp (str "release.nzb") (some (.doc [(none, 1), (none, 2)])),
      setKey (setKey exSplitUp (str "release.nzb") (some (.doc [(none, 1), (none, 2)]))) (str "release.part2.NZB") none],
    setKey exSplitUp (str "release.nzb") (some .empty), ?_, List.mem_cons_self, ⟨str "release.nzb", by decide +kernel⟩, ?_⟩
  · have hl : ([str "release.part2.NZB", str "a.txt", str "release.nzb"].filter (isNzbName exLowerN)).mergeSort
        (fun a b => decide (a.length ≤ b.length)) = [str "release.nzb", str "release.part2.NZB"] := by
      have hf : [str "release.part2.NZB", str "a.txt", str "release.nzb"].filter (isNzbName exLowerN) =
        [str "release.part2.NZB", str "release.nzb"] := by decide +kernel
      have hc : decide ((str "release.part2.NZB").length ≤ (str "release.nzb").length) = false := by decide +kernel
      rw [hf]
      simp [List.mergeSort, List.MergeSort.Internal.splitInTwo, hc]
    have hr : readNzbs exSplitUp [str "release.nzb", str "release.part2.NZB"] = some [(none, 1), (none, 2)] := by decide +kernel
    unfold nzbMerge
    rw [hl]
    simp only
    rw [hr]
    rfl
  · rintro ⟨name, hname⟩
    by_cases h1 : name = str "release.nzb"
    · subst h1
      simp [filesIn, setKey] at hname
    · by_cases h2 : name = str "release.part2.NZB"
      · subst h2
        simp [filesIn, setKey, exSplitUp, h1] at hname
      · simp [filesIn, setKey, exSplitUp, h1, h2] at hname

/-- The names for three NZB files. -/
def exProcess (n : Nat) : Option (Str × Bool) :=
  if n = 1 then some (str "A-GRP", true) else if n = 2 then some (str "A-GRP", false) else if n = 3 then some (str "A-GRP", true) else none

def exIn : RenameDirs Nat :=
  ⟨fun n => if n = str "x.nzb" then some 1 else if n = str "y.nzb" then some 2 else if n = str "z.nzb" then some 3 else none,
    fun _ => none, fun _ => none⟩

/-- The hypotheses of `rename_keeps_partial` and `rename_moves_partial` hold for the first two. -/
example : (∀ c, Held exIn c → Held (nzbRename exProcess exIn [str "x.nzb", str "y.nzb"]) c) ∧
    (nzbRename exProcess exIn [str "x.nzb", str "y.nzb"]).music (str "A-GRP.nzb") = some 1 := by
  have hx : exIn.inp (str "x.nzb") = some 1 := by decide +kernel
  have hy : exIn.inp (str "y.nzb") = some 2 := by decide +kernel
  have hd : ∀ a ∈ [str "x.nzb", str "y.nzb"], ∀ b ∈ [str "x.nzb", str "y.nzb"], a ≠ b → ∀ x y, exIn.inp a = some x → exIn.inp b = some y →
      ∀ r, exProcess x = some r → exProcess y ≠ some r := by
    intro a ha b hb hab x y h1 h2 r h3
    simp only [List.mem_cons, List.not_mem_nil, or_false] at ha hb
    rcases ha with rfl | rfl <;> rcases hb with rfl | rfl
    · exact absurd rfl hab
    · rw [hx] at h1; rw [hy] at h2; cases h1; cases h2; cases h3; decide
    · rw [hy] at h1; rw [hx] at h2; cases h1; cases h2; cases h3; decide
    · exact absurd rfl hab
  refine ⟨rename_keeps_partial exProcess _ exIn (by decide +kernel) hd (by intro a _ x new m _ _; cases m <;> rfl), ?_⟩
  refine (rename_moves_partial exProcess _ exIn (by decide +kernel) hd (str "x.nzb") (by decide +kernel) (by decide +kernel) 1 (str "A-GRP") true
    hx rfl rfl ?_).1
  intro b hb hne y new' h1 h2
  simp only [List.mem_cons, List.not_mem_nil, or_false] at hb
  rcases hb with rfl | rfl
  · exact absurd rfl hne
  · rw [hy] at h1; cases h1; cases h2

/-- C115 is false for two NZB files with the same new name: the first is gone. -/
theorem rename_loses : Held exIn 1 ∧ ¬ Held (nzbRename exProcess exIn [str "x.nzb", str "y.nzb", str "z.nzb"]) 1 := by
  refine ⟨⟨str "x.nzb", Or.inl (by decide +kernel)⟩, ?_⟩
  have hr : nzbRename exProcess exIn [str "x.nzb", str "y.nzb", str "z.nzb"] =
      renameStep exProcess (renameStep exProcess (renameStep exProcess exIn (str "x.nzb")) (str "y.nzb")) (str "z.nzb") := rfl
  rw [hr]
  have h1 : renameStep exProcess exIn (str "x.nzb") =
      ⟨setKey exIn.inp (str "x.nzb") none, setKey exIn.music (str "A-GRP.nzb") (some 1), exIn.other⟩ := by rfl
  have h2 : renameStep exProcess ⟨setKey exIn.inp (str "x.nzb") none, setKey exIn.music (str "A-GRP.nzb") (some 1), exIn.other⟩ (str "y.nzb") =
      ⟨setKey (setKey exIn.inp (str "x.nzb") none) (str "y.nzb") none, setKey exIn.music (str "A-GRP.nzb") (some 1),
        setKey exIn.other (str "A-GRP.nzb") (some 2)⟩ := by rfl
  have h3 : renameStep exProcess ⟨setKey (setKey exIn.inp (str "x.nzb") none) (str "y.nzb") none,
        setKey exIn.music (str "A-GRP.nzb") (some 1), setKey exIn.other (str "A-GRP.nzb") (some 2)⟩ (str "z.nzb") =
      ⟨setKey (setKey (setKey exIn.inp (str "x.nzb") none) (str "y.nzb") none) (str "z.nzb") none,
        setKey (setKey exIn.music (str "A-GRP.nzb") (some 1)) (str "A-GRP.nzb") (some 3), setKey exIn.other (str "A-GRP.nzb") (some 2)⟩ := by rfl
  rw [h1, h2, h3]
  rintro ⟨n, h | h | h⟩
  · simp only [setKey, exIn] at h
    split at h
    · cases h
    · split at h
      · cases h
      · split at h
        · cases h
        · cases h
  · simp only [setKey, exIn] at h
    split at h <;> cases h
  · simp only [setKey, exIn] at h
    split at h <;> cases h

end Rescene.Props
