import Verif.Props.HistoryHash
import Verif.Props.MadeSrrExample
/-
C114: an example.  The SRR of C113's example, and one that is created of the volumes in the other order, with another application name
and without stored files.
-/
namespace Rescene.Props
open Rescene Rescene.Spec
set_option maxRecDepth 100000

def exSwapped : Bytes := okOr (createSrr exDig id 5 exDisk (str "other") [] [exPartV2.1, exPartV1.1] false true)

theorem exSwapped_made : MadeSrr true ⟨str "other", [], [exPartV2, exPartV1]⟩ exSwapped := by
  have h : createSrr exDig id 5 exDisk (str "other") [] ([exPartV2, exPartV1].map (·.1)) false true = .ok exSwapped := by decide +kernel
  exact MadeSrr.create (oso := true) (fun h => by simp at h) h (fun v hv => exVols_good v (by
    simp only [List.mem_cons, List.not_mem_nil, or_false] at hv
    rcases hv with rfl | rfl <;> simp [exVols, exPartV1, exPartV2]))

theorem exKept_usual : ∀ v ∈ exKept.vols, ∀ tr, readTrace v.2 = .ok tr → ∀ x ∈ tr, UsualSize x.1 := by
  intro v hv
  simp only [exKept, List.mem_cons, List.not_mem_nil, or_false] at hv
  rcases hv with rfl | rfl
  · exact usual_of_check (by decide +kernel)
  · exact usual_of_check (by decide +kernel)

/-- The hypotheses of `history_hash` are met, by different SRR files. -/
example (hash : Bytes → Str) : contentHash exLower id hash exSwapped = contentHash exLower id hash exBoth1 ∧ exSwapped ≠ exBoth1 := by
  refine ⟨history_hash exMade exSwapped_made (by simp [exKept]) exKept_usual ?_ (by decide +kernel), by decide +kernel⟩
  exact List.Perm.swap _ _ _

/-- The hypotheses of `history_hash_is` are met. -/
example (hash : Bytes → Str) : contentHash exLower id hash exBoth1 =
    .ok (hash (hashed (volumeEntries (volumeOf exPartV2)).2 ++ hashed (volumeEntries (volumeOf exPartV1)).2)) := by
  have := history_hash_is (hash := hash) (lower := exLower) (upper := id) (sorted := [volumeOf exPartV2, volumeOf exPartV1]) exMade
    (by simp [exKept]) exKept_usual (by decide +kernel) (List.Perm.swap _ _ _) (by decide +kernel)
  simpa using this

/-- The hypotheses of `history_all_extracted` are met. -/
example : ∃ fs' rs, extractFiles (str "/r/m.srr") (fun _ => false) ⟨str "/o", true, [], none⟩ exBothFS1 = (fs', .ok rs) ∧
    fs' (str "/o/b.nfo") = some [7, 7, 7] ∧ fs' (str "/o/c.txt") = some [9] := by
  have hs : exBothFS1 (str "/r/m.srr") = some exBoth1 := by decide +kernel
  have hn1 : exBothFS1 (str "/o/b.nfo") = none := by decide +kernel
  have hn2 : exBothFS1 (str "/o/c.txt") = none := by decide +kernel
  obtain ⟨fs', rs, h1, _, _, h4⟩ := history_all_extracted (out := fun n => str "/o/" ++ n) (ask := fun _ => false)
    (a := ⟨str "/o", true, [], none⟩) exMade (by decide +kernel) hs rfl rfl (fun _ => rfl)
    (by
      intro f hf
      simp only [exKept, List.mem_cons, List.not_mem_nil, or_false] at hf
      rcases hf with rfl | rfl <;> exact ⟨by decide +kernel, by decide +kernel⟩)
  exact ⟨fs', rs, h1, h4 [] (str "b.nfo") [7, 7, 7] [(str "c.txt", [9])] rfl (by simp) hn1,
    h4 [(str "b.nfo", [7, 7, 7])] (str "c.txt") [9] [] rfl (by decide +kernel) hn2⟩

end Rescene.Props
