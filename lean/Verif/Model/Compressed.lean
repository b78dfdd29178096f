import Verif.Model.RarSets
import Verif.Spec.Reconstruct
/-
The packed data of a compressed file for `reconstruct`, made with the executables of a repository:
/repo/rescene/main.py:1326-1333, 1723-1728 and 1998-2052, for the first file of a set when nothing
was made before.  `RarSets` and `SecondMethod` have the other cases.
-/
namespace Rescene
open Spec

/-- The names of the file that is packed, of the archive and of the test piece. -/
structure RarNames where
  src : Str
  out : Str
  piece : Str

/-- rar.py:1032-1099: the fields of a file block that the search looks at. -/
def partOf (p : FilePart) : PackedPart := ⟨p.f.name, p.flags, p.f.method, p.f.fileCrc, p.f.packedSize, p.f.unpackedSize⟩

/-- main.py:1998-2052 for block 0 of a set that has one file in the given parts, with content `d`.
The block behind it, when there is one, is a part of the same file, so that the same file is found
for it. -/
def compressFirst (w : RarWorld) (nm : RarNames) (parts : List FilePart) (d : Bytes) : Res Bytes :=
  match parts.map partOf with
  | [] => .error .indexError
  | b :: rest =>
    match factoryPlan (fun _ => false) 0 b (b :: rest) with
    | .error e => .error e
    | .ok (.solidMore _) => .error .keyError
    | .ok (.solidFirst _) => do
      let x ← compressedFile w [] (b :: rest) 0 b d nm.src nm.out nm.piece d.length (some nm.src) true
      return x.2.2
    | .ok (.alone next) => do
      let x ← compressedFile w [] (b :: rest) 0 b d nm.src nm.out nm.piece d.length (next.map fun _ => nm.src) false
      return x.2.2

end Rescene
