import Verif.Model.Compressed
/-
The packed data of a compressed file that is not the first of its set: main.py:1723-1728 and
1998-2054 when no file was packed before, so that all other files of the set are stored ones.
-/
namespace Rescene
open Spec

/-- main.py:2008-2054 for block `i` of the set with the given parts, a file with content `d`.
`locate` is `_locate_file` for the block behind it; `none` is a file that is not found (2048-2051). -/
def compressIn (w : RarWorld) (nm : RarNames) (locate : PackedPart → Option Str) (parts : List FilePart) (i : Nat) (d : Bytes) :
    Res Bytes :=
  match (parts.map partOf)[i]? with
  | none => .error .indexError
  | some b =>
    match factoryPlan (fun _ => false) i b (parts.map partOf) with
    | .error e => .error e
    | .ok (.solidMore _) => .error .keyError
    | .ok (.solidFirst f) => do
      let x ← compressedFile w [] (parts.map partOf) i b d nm.src nm.out nm.piece d.length (locate f) true
      return x.2.2
    | .ok (.alone next) => do
      let x ← compressedFile w [] (parts.map partOf) i b d nm.src nm.out nm.piece d.length (next.bind locate) false
      return x.2.2

end Rescene
