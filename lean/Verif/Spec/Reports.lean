import Verif.Spec.Repack
import Verif.Spec.Reconstruct
/-
The checksums in the headers of archived files, and which of them do not match.
-/
namespace Rescene.Spec

/-- The packed data of the file with part `p`, from its beginning up to the end of the part;
`last` is the name of the file of the part before, with its packed data until there. -/
def packedSoFar : Option (Str × Bytes) → FilePart → Bytes
  | some (n, d), p => if n = p.f.name then d ++ p.data else p.data
  | none, p => p.data

/-- A wrong checksum: in a part that is followed by another one (flag 2) the header has the CRC
of the packed data of that part; in the last part it has the CRC of the file, which can be
compared when the file is not compressed. -/
def wrongPart (p : FilePart) (packed : Bytes) : List CrcReport :=
  if hasFlag p.flags 2 then
    if p.f.fileCrc = (crc32 p.data 0).toNat then [] else [.volume]
  else if p.f.method = 0x30 ∧ p.f.fileCrc ≠ (crc32 packed 0).toNat then [.file p.f.name] else []

/-- The wrong checksums of parts that follow each other. -/
def wrongParts : Option (Str × Bytes) → List FilePart → List CrcReport
  | _, [] => []
  | last, p :: ps => wrongPart p (packedSoFar last p) ++ wrongParts (some (p.f.name, packedSoFar last p)) ps

end Rescene.Spec
