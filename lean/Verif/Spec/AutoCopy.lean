import Verif.Spec.AutoFind
import Verif.Spec.Paths
import Verif.Model.Files
/-
The files of a release in the working folder.
-/
namespace Rescene.Spec
open Rescene

/-- There is a file with this path below the folder of the release, over these names. -/
def FileOver (t : Tree) (names : List Str) : Prop :=
  ∃ ns s name, folderAt t ns = some s ∧ name ∈ s.files ∧ names = ns ++ [name]

/-- No file or folder is called `.` or `..`. -/
def NoDots (t : Tree) : Prop := ∀ names, FileOver t names → [0x2E] ∉ names ∧ [0x2E, 0x2E] ∉ names

/-- The disk holds the release: the folders list what is in them, and each of its files has its contents. -/
structure OnDisk (listdir : Str → Option (List Str)) (fs : FS) (root : Str) (t : Tree) : Prop where
  lists : ∀ ns s, folderAt t ns = some s → ∃ l, listdir (pathAt root ns) = some l ∧ ∀ n, n ∈ l ↔ n ∈ s.files ∨ n ∈ s.dirs.toList.map (·.1)
  files : ∀ ns s, folderAt t ns = some s → ∀ n, 0x2F ∉ n → ((fs (pathAt root (ns ++ [n]))).isSome ↔ n ∈ s.files)

/-- No two files of a folder differ in case only. -/
def CaseApart (lower : Str → Str) (t : Tree) : Prop := ∀ ns s, folderAt t ns = some s →
  ∀ a ∈ s.files, ∀ b ∈ s.files, lower a = lower b → a = b

/-- The working folder is not in the release, and the release not in the working folder. -/
def Elsewhere (root work : Str) : Prop := ∀ a b, pathAt work a ≠ pathAt root b

/-- Names of NFO files that sites add: `imdb.nfo` and `tvmaze.nfo`, and a `no.nfo` of eight bytes. -/
def SiteNfo (lower : Str → Str) (name : Str) (size : Nat) : Prop :=
  lower name = str "imdb.nfo" ∨ lower name = str "tvmaze.nfo" ∨ (lower name = str "no.nfo" ∧ size = 8)

/-- Names of logs of transfers, and of hidden files. -/
def SiteLog (lower : Str → Str) (name : Str) : Prop :=
  lower name = str "rushchk.log" ∨ lower name = str ".upchk.log" ∨ lower name = str "ufxpcrc.log" ∨ ∃ r, name = 0x2E :: r

/-- A name with this in it, in its first line. -/
def SaysIn (s : Str) (P : Str → Prop) : Prop := ∃ a u b, s = a ++ u ++ b ∧ P u ∧ 0x0A ∉ a

/-- Releases that fix the SFV, the proof, the folder, ... of another release. -/
def FixName (s : Str) : Prop :=
  (SaysIn s fun u => ∃ x y sep, x ∈ ["sfv", "ppf", "sync", "proof", "proo", "dir", "nfo", "interleaving", "trackorder"] ∧ y ∈ ["fix", "patch"] ∧
    (sep = [] ∨ ∃ c, c ≠ 0x0A ∧ sep = [c]) ∧ ∃ x' y', SameWord x' (str x) ∧ SameWord y' (str y) ∧ u = x' ++ sep ++ y') ∨
  (SaysIn s fun u => u = str ".FiX." ∨ u = str ".FiX-" ∨ u = str ".FIX." ∨ u = str ".FIX-") ∨
  (SaysIn s fun u => ∃ c, c ≠ 0x0A ∧ u = str ".DVDR" ++ c :: str "Fix-") ∨
  (SaysIn s fun u => ∃ c d, c ≠ 0x0A ∧ d ≠ 0x0A ∧ u = str ".DVDR" ++ c :: str "REPACK" ++ d :: str "Fix-")

end Rescene.Spec
