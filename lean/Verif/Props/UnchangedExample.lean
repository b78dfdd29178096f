import Verif.Props.Unchanged
import Verif.Props.OneVolumeExample
/-
C110: examples, and merged SRR files from which another volume is rebuilt.
-/
namespace Rescene.Props
open Rescene Rescene.Spec
set_option maxRecDepth 100000

/-- The contents of a file, computed. -/
def readContents (file : Bytes) : Option (List Entry) :=
  match readTrace file with
  | .error _ => none
  | .ok tr =>
    let c := tr.map (entryOf file)
    if openReader file = .ok .srr ∧ (tr.all fun x => x.1.raw.length == x.1.hsize + keptLen x.1) = true ∧
      (c.all fun e => if e.btype = 0x6A then
        (match e.kind with | .stored n _ => n == e.data.length | _ => false) else e.data.isEmpty) = true then some c
    else none

theorem readContents_sound {file : Bytes} {c : List Entry} (h : readContents file = some c) : Contents file c := by
  unfold readContents at h
  split at h
  · simp at h
  · rename_i tr htr
    dsimp only at h
    split at h
    · rename_i hc
      obtain ⟨h1, h2, h3⟩ := hc
      simp only [Option.some.injEq] at h
      subst h
      refine ⟨h1, tr, htr, rfl, ?_, ?_⟩
      · intro x hx
        simpa using List.all_eq_true.mp h2 x hx
      · intro e he
        have := List.all_eq_true.mp h3 e he
        split
        · rename_i hb
          rw [if_pos hb] at this
          split at this
          · rename_i n name hk
            exact ⟨name, by rw [hk, beq_iff_eq.mp this]⟩
          · simp at this
        · rename_i hb
          rw [if_neg hb] at this
          simpa using this
    · simp at h

/-- `StartsAnew`, computed. -/
def anewB (old new : List Entry) : Bool :=
  (match new.head? with | some e => (match volumeName e with | some n => !n.isEmpty | none => false) | none => true) &&
  (match (old.filterMap volumeName).getLast? with | some n => (new.filterMap volumeName).head? != some n | none => true) &&
  (match (old.filterMap archivedName).getLast? with | some n => (new.filterMap archivedName).head? != some n | none => true)

theorem anewB_sound {old new : List Entry} (h : anewB old new = true) : StartsAnew old new := by
  unfold anewB at h
  simp only [Bool.and_eq_true] at h
  obtain ⟨⟨h1, h2⟩, h3⟩ := h
  refine ⟨?_, ?_, ?_⟩
  · intro e he
    rw [Option.mem_def.mp he] at h1
    dsimp only at h1
    split at h1
    · rename_i n hn
      exact ⟨n, hn, by rintro rfl; simp at h1⟩
    · simp at h1
  · intro n hn
    rw [Option.mem_def.mp hn] at h2
    simpa using h2
  · intro n hn
    rw [Option.mem_def.mp hn] at h3
    simpa using h3

/-- The SRR of one volume. -/
def exSrrFor (name : Str) (vol : Bytes) : Bytes :=
  match createSrr exDig id 5 (fun _ => some vol) (str "app") [] [⟨str "/in/v.rar", str "/in/v.rar", name⟩] false false with
  | .ok b => b
  | .error _ => []

/-- Merging two SRR files. -/
def exMerge (s1 s2 : Bytes) : Bytes := match mergeSrrs [s1, s2] none with | .ok b => b | .error _ => []

/-- A disk with two SRR files, the merged one, and the archived files `x` and `y`. -/
def exMergeDisk (s1 s2 : Bytes) : FS := fun p =>
  if p = str "/r/1.srr" then some s1 else if p = str "/r/2.srr" then some s2 else if p = str "/r/m.srr" then some (exMerge s1 s2)
  else if p = str "/r/x" then some [1, 2, 3] else if p = str "/r/y" then some [7, 8] else none

/-- The arguments. -/
def exMergeArgs : RecArgs := { exArgs with extractFiles := false, skipCrc := true }

/-- SRR files of two volumes with different files. -/
def exSrr1 : Bytes := exSrrFor (str "cd1/a.rar") (exVolOf [exFileOf 0 0x78 3 [1, 2, 3]])
@[inherit_doc exSrr1] def exSrr2 : Bytes := exSrrFor (str "cd2/b.rar") (exVolOf [exFileOf 0 0x79 2 [7, 8]])
/-- The SRR of another volume with the file of the first one. -/
def exSrr3 : Bytes := exSrrFor (str "cd2/b.rar") (exVolOf [exFileOf 0 0x78 3 [1, 2, 3]])

/-- The hypotheses of `merged_rebuild_same_partial` are met, and both volumes come back. -/
theorem exMerged : reconstruct { exMergeArgs with srr := str "/r/m.srr" } (exMergeDisk exSrr1 exSrr2) =
      rebuildAll exMergeArgs [str "/r/1.srr", str "/r/2.srr"] (exMergeDisk exSrr1 exSrr2) ∧
    exResult (reconstruct { exMergeArgs with srr := str "/r/m.srr" } (exMergeDisk exSrr1 exSrr2)) (str "/o/cd2/b.rar") =
      .ok (some (exVolOf [exFileOf 0 0x79 2 [7, 8]])) := by
  refine ⟨?_, by decide +kernel⟩
  have h1 : (readContents exSrr1).isSome = true := by decide +kernel
  have h2 : (readContents exSrr2).isSome = true := by decide +kernel
  have ha1 : ∀ c ∈ readContents exSrr1, anewB [] (otherPart c) = true := by decide +kernel
  have ha2 : ∀ c ∈ readContents exSrr1, ∀ d ∈ readContents exSrr2, anewB (otherPart c) (otherPart d) = true := by decide +kernel
  obtain ⟨c1, hc1⟩ := Option.isSome_iff_exists.mp h1
  obtain ⟨c2, hc2⟩ := Option.isSome_iff_exists.mp h2
  have hpl : ∀ q, (place [] q).head? = some (str "r") → ∀ name, opath name exMergeArgs.extractPaths exMergeArgs.outFolder ≠ .ok q := by
    intro q hq name ho
    obtain ⟨rel, _, _, h3, _⟩ := extraction_stays_below ho []
    have h4 : place [] exMergeArgs.outFolder = [str "o"] := by decide +kernel
    rw [h4] at h3
    rw [h3] at hq
    revert hq
    simp
    decide
  have hp1 : (place [] (str "/r/1.srr")).head? = some (str "r") := by decide +kernel
  have hp2 : (place [] (str "/r/2.srr")).head? = some (str "r") := by decide +kernel
  have hd2 : exMergeDisk exSrr1 exSrr2 (str "/r/2.srr") = some exSrr2 := by decide +kernel
  have hmr : mergeSrrs [exSrr1, exSrr2] none = .ok (exMerge exSrr1 exSrr2) := by decide +kernel
  exact merged_rebuild_same_partial (a := exMergeArgs) (fs := exMergeDisk exSrr1 exSrr2)
    (inputs := [⟨str "/r/1.srr", exSrr1, c1⟩, ⟨str "/r/2.srr", exSrr2, c2⟩]) (app := none) (m := str "/r/m.srr")
    (new := exMerge exSrr1 exSrr2) rfl rfl (by simp)
    (by
      intro i hi
      simp only [List.mem_cons, List.not_mem_nil, or_false] at hi
      rcases hi with rfl | rfl
      · exact ⟨readContents_sound hc1, by simp [exMergeDisk]⟩
      · exact ⟨readContents_sound hc2, hd2⟩)
    (by
      intro i hi
      simp only [List.mem_cons, List.not_mem_nil, or_false] at hi
      rcases hi with rfl | rfl
      · exact hpl _ hp1
      · exact hpl _ hp2)
    hmr (by decide +kernel) (by decide +kernel)
    (by
      intro l i r h
      match l, h with
      | [], h =>
        simp only [List.nil_append, List.cons.injEq] at h
        rw [← h.1]
        exact anewB_sound (ha1 c1 hc1)
      | [_], h =>
        simp only [List.cons_append, List.nil_append, List.cons.injEq] at h
        obtain ⟨rfl, rfl, _⟩ := h
        simp only [List.flatMap_cons, List.flatMap_nil, List.append_nil]
        exact anewB_sound (ha2 c1 hc1 c2 hc2)
      | _ :: _ :: _, h => simp at h)

/-- C110, violation: the second of two merged SRR files whose volumes have a file of the same name: rebuilt from its own SRR the
volume is right, from the merged one it is wrong: the file is not read from its start again, and zeros take the place of its data. -/
theorem merged_same_file_wrong :
    exResult (rebuildAll exMergeArgs [str "/r/1.srr", str "/r/3.srr"] (fun p => if p = str "/r/3.srr" then some exSrr3 else exMergeDisk exSrr1 exSrr3 p))
      (str "/o/cd2/b.rar") = .ok (some (exVolOf [exFileOf 0 0x78 3 [1, 2, 3]])) ∧
    exResult (reconstruct { exMergeArgs with srr := str "/r/m.srr" } (exMergeDisk exSrr1 exSrr3)) (str "/o/cd2/b.rar") =
      .ok (some (exVolOf [exFileOf 0 0x78 3 [0, 0, 0]])) := by
  constructor <;> decide +kernel

/-- C110, violation: an SRR merged with itself.  From the SRR alone the volume is rebuilt; from the merged one, the volume is written
twice into the same file, the second time with zeros for the data. -/
theorem merged_twice_wrong :
    exResult (reconstruct { exMergeArgs with srr := str "/r/1.srr" } (exMergeDisk exSrr1 exSrr1)) (str "/o/cd1/a.rar") =
      .ok (some (exVolOf [exFileOf 0 0x78 3 [1, 2, 3]])) ∧
    exResult (reconstruct { exMergeArgs with srr := str "/r/m.srr" } (exMergeDisk exSrr1 exSrr1)) (str "/o/cd1/a.rar") =
      .ok (some (exVolOf [exFileOf 0 0x78 3 [1, 2, 3]] ++ exVolOf [exFileOf 0 0x78 3 [0, 0, 0]])) := by
  constructor <;> decide +kernel

/-- The hypotheses of `edits_rebuild_same` are met: a file is stored in the SRR of the first volume, then it gets another name. -/
example : ∃ fs' new, Edited (str "/r/1.srr") (exMergeDisk exSrr1 exSrr2) fs' ∧ fs' (str "/r/1.srr") = some new ∧ 20 ≤ new.length ∧
    (∃ c, Contents exSrr1 c) ∧ (∃ c, Contents new c ∧ (storedPart c).map (·.kind) = [.stored 1 (str "y/n")]) := by
  have h1 : (readContents exSrr1).isSome = true := by decide +kernel
  obtain ⟨c1, hc1⟩ := Option.isSome_iff_exists.mp h1
  have hno : ∀ c ∈ readContents exSrr1, c.all (fun e => e.btype != 0x6A) = true := by decide +kernel
  have hno1 : ∀ e ∈ c1, ∀ name, ¬ e.isStored name := by
    intro e he name hs
    have := List.all_eq_true.mp (hno c1 hc1) e he
    rw [hs.1] at this
    simp at this
  have hd : exMergeDisk exSrr1 exSrr2 (str "/r/1.srr") = some exSrr1 := by decide +kernel
  have ht : exMergeDisk exSrr1 exSrr2 (str "/r/t") = none := by decide +kernel
  obtain ⟨n1, r1, k1, _, _⟩ := add_inserts (storeFiles := [str "n"]) (news := [(str "n", .ok [9])]) (tmp := str "/r/t")
    (adds := [⟨0x6A, .stored 1 (str "n"), [0x6A, 0x6A, 0x6A, 0, 0x80, 14, 0, 1, 0, 0, 0, 1, 0, 0x6E], [9]⟩])
    (by decide) ht hd (readContents_sound hc1) (by decide) (fun e he name hs => absurd hs (hno1 e he name))
  rw [List.append_assoc, List.singleton_append] at k1
  obtain ⟨n2, r2, k2⟩ := rename_changes_name (fs := (exMergeDisk exSrr1 exSrr2).set (str "/r/1.srr") (some n1)) (name := str "n")
    (newName := str "y/n") (raw := [0x6A, 0x6A, 0x6A, 0, 0x80, 16, 0, 1, 0, 0, 0, 3, 0, 0x79, 0x2F, 0x6E]) (tmp := str "/r/t")
    (show str "/r/1.srr" ≠ str "/r/t" by decide) (by rw [FS.set_ne _ _ (by decide)]; exact ht) (FS.set_eq _ _ _) k1 ⟨rfl, 1, rfl⟩
    (fun e he => hno1 e ((List.takeWhile_sublist _).mem he) _) (by decide)
  refine ⟨_, n2, .edit (.add [str "n"] [(str "n", .ok [9])]) (by decide) ht hd r1
    (.edit (.rename (str "n") (str "y/n")) (show str "/r/1.srr" ≠ str "/r/t" by decide) (by rw [FS.set_ne _ _ (by decide)]; exact ht)
      (FS.set_eq _ _ _) r2 (.none _)), FS.set_eq _ _ _, ?_, ⟨c1, readContents_sound hc1⟩, _, k2, ?_⟩
  · exact (openReader_two k2.1).1
  · have hb : storedPart (beforeRar c1) = [] := by
      rw [storedPart, List.filter_eq_nil_iff]
      intro e he h2
      have := List.all_eq_true.mp (hno c1 hc1) e ((List.takeWhile_sublist _).mem he)
      simp at h2 this
      exact this h2
    have hf : storedPart (fromRar c1) = [] := by
      rw [storedPart, List.filter_eq_nil_iff]
      intro e he h2
      have := List.all_eq_true.mp (hno c1 hc1) e ((List.dropWhile_sublist _).mem he)
      simp at h2 this
      exact this h2
    unfold storedPart at hb hf ⊢
    rw [List.filter_append, hb, List.filter_cons_of_pos (by decide), hf]
    rfl

end Rescene.Props
