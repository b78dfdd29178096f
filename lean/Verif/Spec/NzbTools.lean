import Verif.Model.NzbTools
/-
C115: what happens to the files of NZB files.
-/
namespace Rescene.Spec
open Rescene

/-- The files of a release, in order. -/
def postsOf {α : Type} (release : α → Option Str) (r : Str) (fs : List α) : List α := fs.filter fun f => release f == some r

/-- The files that an NZB of a folder has; none when it is not there. -/
def filesIn {α : Type} (d : NzbDir α) (name : Str) : List α :=
  match d name with
  | some (.doc l) => l
  | _ => []

/-- This file is in some NZB of the folder. -/
def InFolder {α : Type} (d : NzbDir α) (f : α) : Prop := ∃ name, f ∈ filesIn d name

/-- Some file in one of the three folders has these contents. -/
def Held {β : Type} (d : RenameDirs β) (c : β) : Prop :=
  ∃ n, d.inp n = some c ∨ d.music n = some c ∨ d.other n = some c

end Rescene.Spec
