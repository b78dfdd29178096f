import Verif.Model.Unrar
import Verif.Spec.Unrar
/-
C121: unrar is found, and pyrescene.py works without it.
-/
namespace Rescene.Props
open Rescene Rescene.Spec

theorem unrarIn_eq (w : UnrarWorld) (var : Str) : unrarIn w var = (unrarBelow (w.env var)).find? w.pathExists := by
  unfold unrarIn
  cases w.env var with
  | none => rfl
  | some f =>
    simp only [unrarBelow, List.find?]
    cases w.pathExists (f ++ str "\\WinRAR\\UnRAR.exe") <;> simp
    cases w.pathExists (f ++ str "\\Unrar\\UnRAR.exe") <;> rfl

/-- C121: on Windows the first of the places at which there is a file is used, when files are all that is there. -/
theorem unrar_first {w : UnrarWorld} (hw : w.windows = true) (hf : ∀ p, w.pathExists p = w.isFile p)
    (hwhich : ∀ p, w.which = some p → w.isFile p = true) :
    locateUnrar w = some (((unrarPlaces w.env w.registry w.which).find? w.isFile).getD (str "UnRAR.exe")) := by
  have he : w.pathExists = w.isFile := funext hf
  unfold locateUnrar locateWindows unrarPlaces
  rw [if_pos hw, unrarIn_eq, unrarIn_eq, he]
  simp only [List.find?_append]
  cases h1 : (unrarBelow (w.env (str "ProgramW6432"))).find? w.isFile with
  | some p => simp
  | none =>
    cases h2 : (unrarBelow (w.env (str "ProgramFiles(x86)"))).find? w.isFile with
    | some p => simp
    | none =>
      unfold tryRegistry
      cases h3 : w.registry with
      | none =>
        cases h4 : w.which with
        | none =>
          cases h6 : w.isFile (str "UnRAR.exe") <;> simp [h6]
        | some q => simp [hwhich q h4]
      | some p =>
        cases h5 : w.isFile p with
        | true => simp [h5]
        | false =>
          cases h4 : w.which with
          | none => cases h6 : w.isFile (str "UnRAR.exe") <;> simp [h5, h6]
          | some q => simp [h5, hwhich q h4]

/-- C121: on Windows pyrescene.py knows whether unrar is there. -/
theorem unrar_known {w : UnrarWorld} (hw : w.windows = true) (hf : ∀ p, w.pathExists p = w.isFile p)
    (hwhich : ∀ p, w.which = some p → w.isFile p = true) (option : Bool) :
    (∃ b, unrarAvailable w = .ok b ∧ (b = true ↔ ∃ p ∈ unrarPlaces w.env w.registry w.which, w.isFile p = true) ∧
      vobsubOption w option = .ok (option && b) ∧ vobsubsOnly w = .ok (if b then none else some 1)) := by
  have h := unrar_first hw hf hwhich
  have ha : unrarAvailable w = .ok (w.isFile (((unrarPlaces w.env w.registry w.which).find? w.isFile).getD (str "UnRAR.exe"))) := by
    unfold unrarAvailable
    rw [h]
  refine ⟨_, ha, ?_, ?_, ?_⟩
  · cases hp : (unrarPlaces w.env w.registry w.which).find? w.isFile with
    | some p =>
      simp only [Option.getD_some]
      exact ⟨fun h => ⟨p, List.mem_of_find?_eq_some hp, h⟩, fun _ => List.find?_some hp⟩
    | none =>
      rw [List.find?_eq_none] at hp
      simp only [Option.getD_none]
      constructor
      · intro h
        exact absurd h (hp _ (by simp [unrarPlaces]))
      · rintro ⟨p, hm, h⟩
        exact absurd h (hp p hm)
  · unfold vobsubOption
    cases option with
    | true => simp [ha]
    | false => rfl
  · unfold vobsubsOnly
    rw [ha]
    rfl

/-- C121: on other systems the same holds when unrar is on the search path. -/
theorem unrar_on_path_partial {w : UnrarWorld} (hw : w.windows = false) {p : Path} (h : w.which = some p) (hf : w.isFile p = true)
    (option : Bool) : unrarAvailable w = .ok true ∧ vobsubOption w option = .ok option ∧ vobsubsOnly w = .ok none := by
  have ha : unrarAvailable w = .ok true := by simp [unrarAvailable, locateUnrar, hw, h, hf]
  refine ⟨ha, ?_, by simp [vobsubsOnly, ha]⟩
  unfold vobsubOption
  cases option <;> simp [ha]

/-- C121 is false: where there is no unrar, asking whether it is there raises TypeError, so that --vobsub-srr is not ignored and
--vobsubs does not end with status 1. -/
theorem unrar_missing_raises {w : UnrarWorld} (hw : w.windows = false) (h : w.which = none) :
    unrarAvailable w = .error .typeError ∧ vobsubOption w true = .error .typeError ∧ vobsubsOnly w = .error .typeError := by
  have ha : unrarAvailable w = .error .typeError := by simp [unrarAvailable, locateUnrar, hw, h]
  exact ⟨ha, by simp [vobsubOption, ha], by simp [vobsubsOnly, ha]⟩

/-- C121 is false: a folder with the name of the executable hides one in a later place. -/
theorem unrar_folder_hides {w : UnrarWorld} (hw : w.windows = true) {f : Str} (hv : w.env (str "ProgramW6432") = some f)
    (he : w.pathExists (f ++ str "\\WinRAR\\UnRAR.exe") = true) (hf : w.isFile (f ++ str "\\WinRAR\\UnRAR.exe") = false) :
    unrarAvailable w = .ok false := by
  simp [unrarAvailable, locateUnrar, hw, locateWindows, unrarIn, hv, he, hf]

/-- A machine with unrar in the second folder and in the registry. -/
def exUnrar : UnrarWorld where
  windows := true
  env := fun v => if v = str "ProgramFiles(x86)" then some (str "C:\\P") else none
  pathExists := fun p => p = str "C:\\P\\Unrar\\UnRAR.exe" || p = str "D:\\UnRAR.exe"
  isFile := fun p => p = str "C:\\P\\Unrar\\UnRAR.exe" || p = str "D:\\UnRAR.exe"
  registry := some (str "D:\\UnRAR.exe")
  which := none

example : locateUnrar exUnrar = some (str "C:\\P\\Unrar\\UnRAR.exe") ∧
    locateUnrar exUnrar = some (((unrarPlaces exUnrar.env exUnrar.registry exUnrar.which).find? exUnrar.isFile).getD (str "UnRAR.exe")) ∧
    locateUnrar { exUnrar with env := fun _ => none } = some (str "D:\\UnRAR.exe") ∧
    unrarAvailable { exUnrar with windows := false } = .error .typeError :=
  ⟨by decide +kernel, unrar_first rfl (fun _ => rfl) (fun _ h => by cases h), by decide +kernel,
    (unrar_missing_raises (w := { exUnrar with windows := false }) rfl rfl).1⟩

end Rescene.Props
