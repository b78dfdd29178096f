import Verif.Model.Repack
/-
Copying packed data into a volume.
-/
namespace Rescene.Spec

/-- The bytes a source will give: a file from its position on, or zeros up to the size of a
fake file. -/
def Gives : Src → Bytes → Prop
  | .file data pos, rest => rest = data.drop pos
  | .fake f, rest => 0 ≤ f.pos ∧ f.pos ≤ f.size ∧ rest = List.replicate (f.size - f.pos).toNat 0

/-- Exactly `n` bytes: the first ones of `rest`, filled up with zeros. -/
def filled (rest : Bytes) (n : Nat) : Bytes := rest.take n ++ List.replicate (n - rest.length) 0

/-- What has to be reported after copying `copied` (the bytes that came from the source): in a
part that is followed by another one (flag 2) the CRC in the header is that of the part; in the
last part it is that of the whole file, whose parts before had the CRC `running`.  The CRC of a
file that is compressed cannot be checked at its end. -/
def mismatch (flags : Nat) (f : FileFields) (copied : Bytes) (running : BitVec 32) : List CrcReport :=
  if hasFlag flags 2 then
    if f.fileCrc = (crc32 copied 0).toNat then [] else [.volume]
  else
    if f.method ≠ 0x30 ∨ f.fileCrc = (crc32 copied running).toNat then [] else [.file f.name]

end Rescene.Spec
