import Verif.Model.Str
/-
Meaning of POSIX paths.
-/
namespace Rescene.Spec

/-- A path component that names an entry of a directory: not empty, not "." or "..",
no "/". -/
def PlainElem (e : Str) : Prop := e ≠ [] ∧ e ≠ [0x2E] ∧ e ≠ [0x2E, 0x2E] ∧ 0x2F ∉ e

/-- Follow path components from a directory (given by its components from the root),
without symbolic links: "" and "." stay, ".." goes up (the root is its own parent),
anything else goes down. -/
def walk (dir : List Str) : List Str → List Str
  | [] => dir
  | c :: cs =>
    if c = [] ∨ c = [0x2E] then walk dir cs
    else if c = [0x2E, 0x2E] then walk dir.dropLast cs
    else walk (dir ++ [c]) cs

/-- The place a path denotes, for a working directory. -/
def place (cwd : List Str) (p : Str) : List Str :=
  walk (if p.head? = some 0x2F then [] else cwd) (splitOn 0x2F p)

end Rescene.Spec
