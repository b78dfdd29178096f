import Verif.Model.Files
/-
Finding unrar: /repo/rescene/unrar.py and bin/pyrescene.py:128-136, 1130-1134, 1660-1663.
-/
namespace Rescene

/-- What is asked of the system: `os.name == "nt"`, the environment, `os.path.exists`, `os.path.isfile`, the path in the registry and
`shutil.which("unrar")`. -/
structure UnrarWorld where
  windows : Bool
  env : Str → Option Str
  pathExists : Path → Bool
  isFile : Path → Bool
  registry : Option Path
  which : Option Path

/-- unrar.py:54-58 and 61-65: below the folder in a variable; `none` is KeyError. -/
def unrarIn (w : UnrarWorld) (var : Str) : Option Path :=
  match w.env var with
  | none => none
  | some folder =>
    if w.pathExists (folder ++ str "\\WinRAR\\UnRAR.exe") then some (folder ++ str "\\WinRAR\\UnRAR.exe")
    else if w.pathExists (folder ++ str "\\Unrar\\UnRAR.exe") then some (folder ++ str "\\Unrar\\UnRAR.exe")
    else none

/-- unrar.py:83-95 `try_registry`: any exception gives None. -/
def tryRegistry (w : UnrarWorld) : Option Path :=
  match w.registry with
  | none => none
  | some p => if w.isFile p then some p else none

/-- unrar.py:51-81 `locate_windows`. -/
def locateWindows (w : UnrarWorld) : Path :=
  match unrarIn w (str "ProgramW6432") with
  | some p => p
  | none =>
    match unrarIn w (str "ProgramFiles(x86)") with
    | some p => p
    | none =>
      match tryRegistry w with
      | some p => p
      | none =>
        match w.which with
        | some p => p
        | none => str "UnRAR.exe"

/-- unrar.py:43-49 `locate_unrar`. -/
def locateUnrar (w : UnrarWorld) : Option Path := if w.windows then some (locateWindows w) else w.which

/-- pyrescene.py:135-136 `unrar_is_available`: `os.path.abspath(None)` raises TypeError.  (`abspath` names the same file.) -/
def unrarAvailable (w : UnrarWorld) : Res Bool :=
  match locateUnrar w with
  | none => .error .typeError
  | some p => .ok (w.isFile p)

/-- pyrescene.py:1130-1133: whether SRR files of vobsubs are made, with the option --vobsub-srr. -/
def vobsubOption (w : UnrarWorld) (option : Bool) : Res Bool :=
  if option then unrarAvailable w else .ok false

/-- pyrescene.py:1656-1663, the option --vobsubs: exit status 1 without unrar, otherwise (`none`) it goes on. -/
def vobsubsOnly (w : UnrarWorld) : Res (Option Nat) := do
  let ok ← unrarAvailable w
  return if ok then none else some 1

end Rescene
