import Verif.Props.History
import Verif.Props.UnchangedExample
/-
C111: an example.
-/
namespace Rescene.Props
open Rescene Rescene.Spec
set_option maxRecDepth 100000

/-- The edits of the example. -/
def exEdits : List Edit := [.add [str "n"] [(str "n", .ok [9])], .rename (str "n") (str "y/n")]

/-- The hypotheses of `history_files` and `history_extracted` are met: a file is stored, then it gets another name; it is extracted
under the new name. -/
example : ∃ fs' new fs'' rs, EditedBy (str "/r/1.srr") exEdits (exMergeDisk exSrr1 exSrr2) fs' ∧ fs' (str "/r/1.srr") = some new ∧
    20 ≤ new.length ∧ extractFiles (str "/r/1.srr") (fun _ => false) ⟨str "/o", true, [], none⟩ fs' = (fs'', .ok rs) ∧
    fs'' (str "/o/y/n") = some [9] := by
  have h1 : (readContents exSrr1).isSome = true := by decide +kernel
  obtain ⟨c1, hc1⟩ := Option.isSome_iff_exists.mp h1
  have hno : ∀ c ∈ readContents exSrr1, c.all (fun e => e.btype != 0x6A) = true := by decide +kernel
  have hno1 : ∀ e ∈ c1, ∀ name, ¬ e.isStored name := by
    intro e he name hs
    have := List.all_eq_true.mp (hno c1 hc1) e he
    rw [hs.1] at this
    simp at this
  have hst : ∀ c ∈ readContents exSrr1, (exEdits.foldl Stored.edit (storedIn c)).all = [(str "y/n", [9])] := by decide +kernel
  have hd : exMergeDisk exSrr1 exSrr2 (str "/r/1.srr") = some exSrr1 := by decide +kernel
  have ht : exMergeDisk exSrr1 exSrr2 (str "/r/t") = none := by decide +kernel
  have hnone : exMergeDisk exSrr1 exSrr2 (str "/o/y/n") = none := by decide +kernel
  obtain ⟨n1, r1, k1, _, _⟩ := add_inserts (storeFiles := [str "n"]) (news := [(str "n", .ok [9])]) (tmp := str "/r/t")
    (adds := [⟨0x6A, .stored 1 (str "n"), [0x6A, 0x6A, 0x6A, 0, 0x80, 14, 0, 1, 0, 0, 0, 1, 0, 0x6E], [9]⟩])
    (by decide) ht hd (readContents_sound hc1) (by decide) (fun e he name hs => absurd hs (hno1 e he name))
  rw [List.append_assoc, List.singleton_append] at k1
  obtain ⟨n2, r2, k2⟩ := rename_changes_name (fs := (exMergeDisk exSrr1 exSrr2).set (str "/r/1.srr") (some n1)) (name := str "n")
    (newName := str "y/n") (raw := [0x6A, 0x6A, 0x6A, 0, 0x80, 16, 0, 1, 0, 0, 0, 3, 0, 0x79, 0x2F, 0x6E]) (tmp := str "/r/t")
    (show str "/r/1.srr" ≠ str "/r/t" by decide) (by rw [FS.set_ne _ _ (by decide)]; exact ht) (FS.set_eq _ _ _) k1 ⟨rfl, 1, rfl⟩
    (fun e he => hno1 e ((List.takeWhile_sublist _).mem he) _) (by decide)
  have he : EditedBy (str "/r/1.srr") exEdits (exMergeDisk exSrr1 exSrr2)
      (((exMergeDisk exSrr1 exSrr2).set (str "/r/1.srr") (some n1)).set (str "/r/1.srr") (some n2)) :=
    .edit (.add [str "n"] [(str "n", .ok [9])]) (by decide) ht hd r1
      (.edit (.rename (str "n") (str "y/n")) (show str "/r/1.srr" ≠ str "/r/t" by decide) (by rw [FS.set_ne _ _ (by decide)]; exact ht)
        (FS.set_eq _ _ _) r2 (.none _))
  have hl := (openReader_two k2.1).1
  obtain ⟨fs'', rs, h2, _, _, h4⟩ := history_extracted (ask := fun _ => false) (a := ⟨str "/o", true, [], none⟩)
    (out := fun _ => str "/o/y/n") (files := [(str "y/n", [9])]) (readContents_sound hc1) hd he (FS.set_eq _ _ _) hl (hst c1 hc1).symm
    rfl rfl (fun _ => rfl) (by decide +kernel)
  refine ⟨_, n2, fs'', rs, he, FS.set_eq _ _ _, hl, h2, ?_⟩
  refine h4 [] (str "y/n") [9] [] rfl (by simp) ?_
  rw [FS.set_ne _ _ (by decide), FS.set_ne _ _ (by decide)]
  exact hnone

end Rescene.Props
