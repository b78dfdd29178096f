import Verif.Props.EditedCreated
import Verif.Props.ReconstructExample
/-
C112: an example.
-/
namespace Rescene.Props
open Rescene Rescene.Spec
set_option maxRecDepth 100000

/-- The SRR that was created. -/
def exOldSrr : Bytes := match exCreated with | .ok b => b | .error _ => []

/-- A stored file gets another name, then a file is added. -/
def exEdit1 : Edit := .rename (str "a.nfo") (str "b.nfo")
@[inherit_doc exEdit1] def exEdit2 : Edit := .add [str "c.txt"] [(str "c.txt", .ok [9])]

/-- The disks before, between and after the edits. -/
def exEdit0FS : FS := FS.set (fun _ => none) (str "/r/a.srr") (some exOldSrr)
@[inherit_doc exEdit0FS] def exEdit1FS : FS := (run (exEdit1.prog (str "/r/a.srr") (str "/r/t") exOldSrr) exEdit0FS []).1
def exMidSrr : Bytes := (exEdit1FS (str "/r/a.srr")).getD []
@[inherit_doc exEdit0FS] def exEdit2FS : FS := (run (exEdit2.prog (str "/r/a.srr") (str "/r/t") exMidSrr) exEdit1FS []).1
def exNewSrr : Bytes := (exEdit2FS (str "/r/a.srr")).getD []

theorem exEdited2 : EditedBy (str "/r/a.srr") [exEdit1, exEdit2] exEdit0FS exEdit2FS := by
  have h1 : (run (exEdit1.prog (str "/r/a.srr") (str "/r/t") exOldSrr) exEdit0FS []).2 = .ok () := by decide +kernel
  have h2 : (run (exEdit2.prog (str "/r/a.srr") (str "/r/t") exMidSrr) exEdit1FS []).2 = .ok () := by decide +kernel
  have t0 : exEdit0FS (str "/r/t") = none := by decide +kernel
  have t1 : exEdit1FS (str "/r/t") = none := by decide +kernel
  have s1 : exEdit1FS (str "/r/a.srr") = some exMidSrr := by decide +kernel
  have r1 : run (exEdit1.prog (str "/r/a.srr") (str "/r/t") exOldSrr) exEdit0FS [] = (exEdit1FS, .ok ()) := Prod.ext rfl h1
  have r2 : run (exEdit2.prog (str "/r/a.srr") (str "/r/t") exMidSrr) exEdit1FS [] = (exEdit2FS, .ok ()) := Prod.ext rfl h2
  exact .edit exEdit1 (by decide) t0 (FS.set_eq _ _ _) r1 (.edit exEdit2 (by decide) t1 s1 r2 (.none _))

theorem exVols_good : ∀ v ∈ exVols, exDisk v.1.exact = some v.2 ∧ GoodVolume v.2 := by
  intro v hv
  simp only [exVols, List.mem_cons, List.not_mem_nil, or_false] at hv
  rcases hv with rfl | rfl
  · exact ⟨by decide +kernel, exVol1_good⟩
  · exact ⟨by decide +kernel, exVol2_good⟩

/-- A disk with the file that is added, too. -/
def exDiskMore (p : Path) : Option Bytes := if p = str "/in/c.txt" then some [9] else exDisk p

/-- The hypotheses of `edited_as_created` are met. -/
example : createSrr exDig id 5 exDiskMore (str "app") [(str "b.nfo", str "/in/a.nfo"), (str "c.txt", str "/in/c.txt")] (exVols.map (·.1)) false false =
    .ok exNewSrr ∧ exNewSrr ≠ exOldSrr := by
  have hc : exCreated = .ok exOldSrr := by decide +kernel
  have hn : exEdit2FS (str "/r/a.srr") = some exNewSrr := by decide +kernel
  exact ⟨edited_as_created hc exVols_good (FS.set_eq _ _ _) exEdited2 hn (by decide +kernel) (by decide +kernel) (by decide +kernel), by decide +kernel⟩

/-- The hypotheses of `edited_reconstruct` are met. -/
example : ∃ fs2 reports, reconstruct exArgs (exDisk1 exNewSrr) = .ok (fs2, reports, true) ∧
    fs2 (str "/o/cd1/a.rar") = some exVol1 ∧ fs2 (str "/o/cd1/a.r00") = some exVol2 := by
  have hc : exCreated = .ok exOldSrr := by decide +kernel
  have hn : exEdit2FS (str "/r/a.srr") = some exNewSrr := by decide +kernel
  have hf : ([exEdit1, exEdit2].foldl Stored.edit ⟨filesOf exDisk [(str "a.nfo", str "/in/a.nfo")], []⟩).all =
      [(str "b.nfo", [7, 7, 7]), (str "c.txt", [9])] := by decide +kernel
  obtain ⟨f, g, n1, n2, n3, n4, hp⟩ := exParts
  obtain ⟨fs2, reports, h1, h2, _⟩ := edited_reconstruct (a := exArgs) (fs1 := exDisk1 exNewSrr) (ext := [str "/o/b.nfo", str "/o/c.txt"])
      (out := fun v => str "/o/" ++ v.1.name) hc exVols_good (by simp [exVols]) (FS.set_eq _ _ _) exEdited2 hn (by simp [exDisk1, exArgs]) rfl
      (by
        rw [hf]
        intro _ x hx
        simp only [List.mem_cons, List.not_mem_nil, or_false] at hx
        rcases hx with rfl | rfl
        · exact ⟨str "/o/b.nfo", by simp, by decide +kernel, by decide +kernel⟩
        · exact ⟨str "/o/c.txt", by simp, by decide +kernel, by decide +kernel⟩)
      (by
        intro v hv
        simp only [exVols, List.mem_cons, List.not_mem_nil, or_false] at hv
        rcases hv with rfl | rfl
        all_goals
          exact ⟨by decide +kernel, Or.inl ⟨by
            unfold exDisk1
            rw [if_neg (by decide +kernel), if_neg (by decide +kernel)], by decide +kernel⟩⟩)
      (by decide +kernel)
      (by
        rw [hp]
        refine Packs.starts (rest := [3, 4, 5]) (by simp) ?_ ?_
        · unfold SourceIs
          rw [if_neg (by dsimp only; decide)]
          refine ⟨str "x", [1, 2, 3, 4, 5], Or.inr ⟨rfl, by dsimp only; rw [n1]; decide +kernel⟩, by decide +kernel, ?_, Or.inl n3.symm, ?_⟩
          · unfold exDisk1
            rw [if_neg (by decide +kernel), if_pos (by decide +kernel)]
          · rw [if_pos n4]; rfl
        · dsimp only
          rw [n1, ← n2]
          exact Packs.continues (p := ⟨0x8001, g, [3, 4, 5]⟩) (rest := []) Packs.nil)
  exact ⟨fs2, reports, h1, h2 (⟨str "/in/a.rar", str "/in/a.rar", str "cd1/a.rar"⟩, exVol1) (by simp [exVols]),
    h2 (⟨str "/in/a.r00", str "/in/a.r00", str "cd1/a.r00"⟩, exVol2) (by simp [exVols])⟩

end Rescene.Props
