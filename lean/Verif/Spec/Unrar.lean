import Verif.Model.Files
/-
Where unrar is looked for.
-/
namespace Rescene.Spec
open Rescene

/-- The places below the folder that an environment variable names. -/
def unrarBelow : Option Str → List Path
  | none => []
  | some folder => [folder ++ str "\\WinRAR\\UnRAR.exe", folder ++ str "\\Unrar\\UnRAR.exe"]

/-- All places on Windows, in order: the two folders for programs, the one in the registry, the search path, the working folder. -/
def unrarPlaces (env : Str → Option Str) (registry which : Option Path) : List Path :=
  unrarBelow (env (str "ProgramW6432")) ++ unrarBelow (env (str "ProgramFiles(x86)")) ++ registry.toList ++ which.toList ++ [str "UnRAR.exe"]

end Rescene.Spec
