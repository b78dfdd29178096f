import Verif.Model.Files
/-
What a question before replacing a file is for.
-/
namespace Rescene.Spec
open Rescene

/-- The first answer that is a yes or a no, in small or capital letters, is `word`; `other` is the other of the two. -/
def FirstIs (lower : Str → Str) (word other : Str) (answers : List Str) : Prop :=
  ∃ before a later, answers = before ++ a :: later ∧ (∀ x ∈ before, lower x ≠ word ∧ lower x ≠ other) ∧ lower a = word

/-- The user says yes. -/
def SaysYes (lower : Str → Str) (answers : List Str) : Prop := FirstIs lower (str "y") (str "n") answers

/-- The user says no. -/
def SaysNo (lower : Str → Str) (answers : List Str) : Prop := FirstIs lower (str "n") (str "y") answers

/-- There is no file that would be lost, or the user has given leave: with the option -y, or with neither option by an answer.
With -n no file is replaced. -/
def MayReplace (lower : Str → Str) (fs : FS) (p : Path) (yes no : Bool) (answers : List Str) : Prop :=
  fs p = none ∨ (no = false ∧ (yes = true ∨ SaysYes lower answers))

end Rescene.Spec
