import Verif.Props.MadeSrr
import Verif.Props.EditedCreatedExample
/-
C113: an example.  An SRR of the first volume is created and edited; it is merged with an SRR of the second volume; a file is added to
the result.
-/
namespace Rescene.Props
open Rescene Rescene.Spec
set_option maxRecDepth 100000

def okOr (r : Res Bytes) : Bytes := match r with | .ok b => b | .error _ => []

/-- The two volumes. -/
def exPartV1 : RarIn × Bytes := (⟨str "/in/a.rar", str "/in/a.rar", str "cd1/a.rar"⟩, exVol1)
@[inherit_doc exPartV1] def exPartV2 : RarIn × Bytes := (⟨str "/in/a.r00", str "/in/a.r00", str "cd1/a.r00"⟩, exVol2)

/-- The SRR files that are created. -/
def exPartA : Bytes := okOr (createSrr exDig id 5 exDisk (str "app") [(str "a.nfo", str "/in/a.nfo")] [exPartV1.1] true false)
@[inherit_doc exPartA] def exPartB : Bytes := okOr (createSrr exDig id 5 exDisk (str "B") [] [exPartV2.1] false false)

/-- The first one is edited, on this disk. -/
def exPartFS : FS := FS.set (fun _ => none) (str "/r/a.srr") (some exPartA)
@[inherit_doc exPartFS] def exPartFS1 : FS := (run (exEdit1.prog (str "/r/a.srr") (str "/r/t") exPartA) exPartFS []).1
def exPartA1 : Bytes := (exPartFS1 (str "/r/a.srr")).getD []

/-- The merged SRR, which is edited again. -/
def exBoth : Bytes := okOr (mergeSrrs [exPartA1, exPartB] none)
def exBothFS : FS := FS.set (fun _ => none) (str "/r/m.srr") (some exBoth)
def exBothFS1 : FS := (run (exEdit2.prog (str "/r/m.srr") (str "/r/t") exBoth) exBothFS []).1
def exBoth1 : Bytes := (exBothFS1 (str "/r/m.srr")).getD []

def exKept : Kept := ⟨str "app", [(str "b.nfo", [7, 7, 7]), (str "c.txt", [9])], [exPartV1, exPartV2]⟩

theorem exMade : MadeSrr false exKept exBoth1 := by
  have hA : createSrr exDig id 5 exDisk (str "app") [(str "a.nfo", str "/in/a.nfo")] ([exPartV1].map (·.1)) true false = .ok exPartA := by decide +kernel
  have hB : createSrr exDig id 5 exDisk (str "B") [] ([exPartV2].map (·.1)) false false = .ok exPartB := by decide +kernel
  have mA := MadeSrr.create (oso := false) (fun _ => rfl) hA (fun v hv => exVols_good v (by simp only [List.mem_singleton] at hv; subst hv; simp [exVols, exPartV1]))
  have mB := MadeSrr.create (oso := false) (fun _ => rfl) hB (fun v hv => exVols_good v (by simp only [List.mem_singleton] at hv; subst hv; simp [exVols, exPartV2]))
  have h1 : (run (exEdit1.prog (str "/r/a.srr") (str "/r/t") exPartA) exPartFS []).2 = .ok () := by decide +kernel
  have t1 : exPartFS (str "/r/t") = none := by decide +kernel
  have r1 : run (exEdit1.prog (str "/r/a.srr") (str "/r/t") exPartA) exPartFS [] = (exPartFS1, .ok ()) := Prod.ext rfl h1
  have s1 : exPartFS1 (str "/r/a.srr") = some exPartA1 := by decide +kernel
  have mA1 := MadeSrr.edit mA (FS.set_eq _ _ _) (.edit exEdit1 (by decide) t1 (FS.set_eq _ _ _) r1 (.none _)) s1
  have f1 : ([exEdit1].foldl Stored.edit ⟨filesOf exDisk [(str "a.nfo", str "/in/a.nfo")], []⟩).all = [(str "b.nfo", [7, 7, 7])] := by decide +kernel
  dsimp only at mA1
  rw [f1] at mA1
  have hm : mergeSrrs [exPartA1, exPartB] none = .ok exBoth := by decide +kernel
  have mM := MadeSrr.merge (inputs := [(_, exPartA1), (_, exPartB)])
    (by
      intro i hi
      simp only [List.mem_cons, List.not_mem_nil, or_false] at hi
      rcases hi with rfl | rfl
      · exact mA1
      · exact mB) hm
  have h2 : (run (exEdit2.prog (str "/r/m.srr") (str "/r/t") exBoth) exBothFS []).2 = .ok () := by decide +kernel
  have t2 : exBothFS (str "/r/t") = none := by decide +kernel
  have r2 : run (exEdit2.prog (str "/r/m.srr") (str "/r/t") exBoth) exBothFS [] = (exBothFS1, .ok ()) := Prod.ext rfl h2
  have s2 : exBothFS1 (str "/r/m.srr") = some exBoth1 := by decide +kernel
  have mE := MadeSrr.edit mM (FS.set_eq _ _ _) (.edit exEdit2 (by decide) t2 (FS.set_eq _ _ _) r2 (.none _)) s2
  have f2 : ([exEdit2].foldl Stored.edit ⟨[(str "b.nfo", [7, 7, 7])] ++ filesOf exDisk [], []⟩).all =
    [(str "b.nfo", [7, 7, 7]), (str "c.txt", [9])] := by decide +kernel
  have f3 : firstName [[], str "app", str "B"] = str "app" := by decide +kernel
  simp only [List.flatMap_cons, List.flatMap_nil, List.append_nil, List.map_cons, List.map_nil, Option.getD_none] at mE
  rw [f2, f3] at mE
  exact mE

/-- The hypotheses of `history_as_created` are met. -/
example : createSrr exDig id 5 exDiskMore (str "app") [(str "b.nfo", str "/in/a.nfo"), (str "c.txt", str "/in/c.txt")] [exPartV1.1, exPartV2.1] true false =
    .ok exBoth1 :=
  history_as_created exMade
    (by
      intro v hv
      simp only [exKept, List.mem_cons, List.not_mem_nil, or_false] at hv
      rcases hv with rfl | rfl <;> decide +kernel)
    (by decide +kernel) (by decide +kernel)

/-- The hypotheses of `history_reconstruct` are met. -/
example : ∃ fs2 reports, reconstruct exArgs (exDisk1 exBoth1) = .ok (fs2, reports, true) ∧
    fs2 (str "/o/cd1/a.rar") = some exVol1 ∧ fs2 (str "/o/cd1/a.r00") = some exVol2 := by
  obtain ⟨f, g, n1, n2, n3, n4, hp⟩ := exParts
  obtain ⟨fs2, reports, h1, h2, _⟩ := history_reconstruct (a := exArgs) (fs := exDisk1 exBoth1) (ext := [str "/o/b.nfo", str "/o/c.txt"])
      (out := fun v => str "/o/" ++ v.1.name) exMade (by simp [exKept]) (by simp [exDisk1, exArgs]) rfl
      (by
        intro _ x hx
        simp only [exKept, List.mem_cons, List.not_mem_nil, or_false] at hx
        rcases hx with rfl | rfl
        · exact ⟨str "/o/b.nfo", by simp, by decide +kernel, by decide +kernel⟩
        · exact ⟨str "/o/c.txt", by simp, by decide +kernel, by decide +kernel⟩)
      (by
        intro v hv
        simp only [exKept, List.mem_cons, List.not_mem_nil, or_false] at hv
        rcases hv with rfl | rfl
        all_goals
          exact ⟨by decide +kernel, Or.inl ⟨by
            unfold exDisk1
            rw [if_neg (by decide +kernel), if_neg (by decide +kernel)], by decide +kernel⟩⟩)
      (by decide +kernel)
      (by
        have hq : (exKept.vols.flatMap fun v => volumeParts v.2) = exVols.flatMap fun v => volumeParts v.2 := rfl
        rw [hq, hp]
        refine Packs.starts (rest := [3, 4, 5]) (by simp) ?_ ?_
        · unfold SourceIs
          rw [if_neg (by dsimp only; decide)]
          refine ⟨str "x", [1, 2, 3, 4, 5], Or.inr ⟨rfl, by dsimp only; rw [n1]; decide +kernel⟩, by decide +kernel, ?_, Or.inl n3.symm, ?_⟩
          · unfold exDisk1
            rw [if_neg (by decide +kernel), if_pos (by decide +kernel)]
          · rw [if_pos n4]; rfl
        · dsimp only
          rw [n1, ← n2]
          exact Packs.continues (p := ⟨0x8001, g, [3, 4, 5]⟩) (rest := []) Packs.nil)
  exact ⟨fs2, reports, h1, h2 exPartV1 (by simp [exKept]), h2 exPartV2 (by simp [exKept])⟩

end Rescene.Props
