import Verif.Model.Sfv
import Verif.Model.Reader
/-
What `info` has to report, from the blocks of the SRR.
-/
namespace Rescene.Spec

/-- The stored files, with their sizes. -/
def storedFiles (bs : List Block) : List (Str × Nat) :=
  bs.filterMap fun b => if b.btype = 0x6A then (match b.kind with | .stored size name => some (name, size) | _ => none) else none

/-- The headers of archived files, in all volumes. -/
def archivedParts (bs : List Block) : List FileFields :=
  bs.filterMap fun b => if b.btype = 0x74 then (match b.kind with | .packed f => some f | _ => none) else none

/-- The OSO hashes: name, hash and size of the file. -/
def osoHashes (bs : List Block) : List (Str × Nat × Nat) :=
  bs.filterMap fun b => if b.btype = 0x6B then (match b.kind with | .oso size hash name => some (name, hash, size) | _ => none) else none

/-- The application names. -/
def headerNames (bs : List Block) : List Str :=
  bs.filterMap fun b => if b.btype = 0x69 then (match b.kind with | .srrHeader app => some app | _ => none) else none

/-- The parts of the file with this name. -/
def partsOf (name : Str) (bs : List Block) : List FileFields := (archivedParts bs).filter fun f => f.name = name

/-- The entries of all stored SFV files of the SRR `data`, in order. -/
def storedSfv (lower : Str → Str) (data : Bytes) (bs : List Block) : List SfvEntry :=
  bs.flatMap fun b => if b.btype = 0x6A then
    (match b.kind with
      | .stored size name => if lower (name.drop (name.length - 4)) = str ".sfv" then
          (parseSfvData (readAt data (b.pos + b.hsize) size)).entries else []
      | _ => []) else []

/-- The name an SFV entry has for `info`. -/
def sfvKey (lower : Str → Str) (e : SfvEntry) : Str := lower (basename e.fileName)

end Rescene.Spec
