import Verif.Model.MixedSet
/-
The packed data of the compressed files of a set, one after the other: main.py:1723-1728 and 1998-2054.
-/
namespace Rescene
open Spec

/-- A compressed file of a set: the number of its first block, its content, and the names for packing it. -/
structure FileToPack where
  block : Nat
  content : Bytes
  names : RarNames

/-- main.py:2008-2054 for one file, when the files in `archived` were packed before: the executable that is good for it, the
last of the files it was packed with and its packed data.  Files of solid archives are in RarSets. -/
def packOne (w : RarWorld) (locate : PackedPart → Option Str) (parts : List FilePart) (archived : Archived) (x : FileToPack) :
    Res (RarVersion × Str × Bytes) :=
  match (parts.map partOf)[x.block]? with
  | none => .error .indexError
  | some b =>
    match factoryPlan (fun n => (archived.lookup n).isSome) x.block b (parts.map partOf) with
    | .error e => .error e
    | .ok (.solidMore _) => .error .other
    | .ok (.solidFirst _) => .error .other
    | .ok (.alone next) => do
      let r ← compressedFile w archived (parts.map partOf) x.block b x.content x.names.src x.names.out x.names.piece x.content.length
        (next.bind locate) false
      return (r.1, r.2.1.store.getLastD [], r.2.2)

/-- main.py:1723-1728 for all files: each is packed when its first block is reached, and then it is in `archived_files`. -/
def packAll (w : RarWorld) (locate : PackedPart → Option Str) (parts : List FilePart) : Archived → List FileToPack → Res (List Bytes)
  | _, [] => .ok []
  | archived, x :: xs => do
    let r ← packOne w locate parts archived x
    let name := match parts[x.block]? with
      | some p => p.f.name
      | none => []
    let rest ← packAll w locate parts (archived ++ [(name, (r.2.1, r.1))]) xs
    return r.2.2 :: rest

end Rescene
