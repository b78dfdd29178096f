import Verif.Spec.Release
/-
The files in the folders of a release.
-/
namespace Rescene.Spec
open Rescene

/-- A file with this path and name is somewhere in the tree. -/
def FileAt (root : Str) (t : Tree) (full name : Str) : Prop :=
  ∃ ns s, folderAt t ns = some s ∧ name ∈ s.files ∧ full = pathAt root (ns ++ [name])

/-- Names of files that a file system allows: no `/`, and no two files of the same name in a folder. -/
def FilesOk (t : Tree) : Prop := ∀ ns s, folderAt t ns = some s →
  s.files.Nodup ∧ ∀ f ∈ s.files, f ≠ [] ∧ 0x2F ∉ f

/-- The name ends with the extension, up to case. -/
def HasExtn (lower : Str → Str) (ext : String) (name : Str) : Prop := str ext <:+ lower name

/-- What is assumed about `str.lower`: ASCII text without capital letters stays as it is. -/
def KeepsLower (lower : Str → Str) : Prop := ∀ s : Str, (∀ c ∈ s, c < 128 ∧ ¬ (0x41 ≤ c ∧ c ≤ 0x5A)) → lower s = s

/-- The extensions of videos and of images. -/
def videoExts : List String := [".mp4", ".m4v", ".avi", ".mkv", ".wmv", ".vob", ".m2ts", ".ts", ".mpeg", ".mpg", ".m2v", ".m2p"]
def imageExts : List String := [".jpg", "jpeg", ".png", ".bmp", ".gif"]

/-- The word is somewhere in the text, up to case. -/
def PathSays (lower : Str → Str) (word : String) (s : Str) : Prop := str word <:+: lower s

/-- A word of folders and names of proofs is in the path. -/
def SaysProof (lower : Str → Str) (path : Str) : Prop :=
  ∃ word ∈ ["proof", "sample", "/cover", "/screenshots", "/compare"], PathSays lower word path

/-- Zeros at the start that music releases have: 00, 01, 000, 001, 0000 or 0001, and `-` or `_`. -/
def zeros : List String := ["00-", "00_", "01-", "01_", "000-", "000_", "001-", "001_", "0000-", "0000_", "0001-", "0001_"]

/-- The name without the zeros. -/
def NoZeros (s r : Str) : Prop := (∃ z ∈ zeros, s = str z ++ r) ∨ ((∀ z ∈ zeros, ¬ str z <+: s) ∧ r = s)

/-- What follows the last hyphen. -/
def LastPart (s r : Str) : Prop := 0x2D ∉ r ∧ (s = r ∨ ∃ a, s = a ++ 0x2D :: r)

/-- The path without the extension of its last part: from the last dot, if something else than dots is before
it in the name. -/
def HasStem (p r : Str) : Prop := ∃ e, p = r ++ 0x2E :: e ∧ 0x2E ∉ e ∧ 0x2F ∉ e ∧ ∃ c ∈ basename r, c ≠ 0x2E
def Stem (p r : Str) : Prop := HasStem p r ∨ ((∀ r, ¬ HasStem p r) ∧ r = p)

/-- Images that a music player adds and images with a space in the name. -/
def Personal (lower : Str → Str) (path : Str) : Prop :=
  0x20 ∈ basename path ∨ (∃ r, Stem (lower path) r ∧ str "folder" <:+ r) ∨
  str "albumartsmall" <:+: basename (lower path) ∨ str "albumart_{" <+: basename (lower path)

/-- The name and that of the image start alike, up to case, with or without zeros, or are of the same group. -/
def Alike (lower : Str → Str) (good path : Str) : Prop :=
  lower (good.take 10) = lower ((basename path).take 10) ∨
  (∃ g i, NoZeros good g ∧ NoZeros (basename path) i ∧ lower (g.take 10) = lower (i.take 10)) ∨
  ∃ g r, LastPart (lower good) g ∧ Stem path r ∧ LastPart (lower r) g

end Rescene.Spec
