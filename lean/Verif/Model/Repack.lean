import Verif.Model.Streams
import Verif.Model.Crc
/-
Rebuilding the data of a volume: /repo/rescene/main.py:1392-1451 and 1508-1559.
-/
namespace Rescene

/-- The open source `srcfs`: a file with its position, or a `FakeFile`. -/
inductive Src where
  | file (data : Bytes) (pos : Nat)
  | fake (f : Fake)
  deriving DecidableEq, Repr

/-- `srcfs.read(n)` for a size that is not negative. -/
def Src.read : Src → Nat → Res (Bytes × Src)
  | .file data pos, n =>
    let b := readAt data pos n
    .ok (b, .file data (pos + b.length))
  | .fake f, n => do
    let (b, f) ← f.read n
    return (b, .fake f)

/-- `srcfs.seek(n)`. -/
def Src.seek : Src → Nat → Res Src
  | .file data _, n => .ok (.file data n)
  | .fake f, n => do
    let (_, f) ← f.seek n .set
    return .fake f

/-- What `_repack` reports (main.py:1548-1558). -/
inductive CrcReport where
  | volume
  | file (name : Str)
  deriving DecidableEq, Repr

/-- main.py:1517-1540: the loop; `copied` is `bytes_copied_inc`.  Returns the bytes written to
the volume, the source, the running CRC and the CRC of the part.  The budget is the packed
size. -/
def repackLoop (packedSize : Nat) (skipCrc : Bool) : Nat → Nat → Src → BitVec 32 → BitVec 32 →
    Res (Bytes × Src × BitVec 32 × BitVec 32)
  | 0, copied, src, running, part =>
    if copied < packedSize then .error .fuel else .ok ([], src, running, part)
  | fuel + 1, copied, src, running, part =>
    if copied < packedSize then do
      let toCopy := packedSize - copied
      let toCopy := if toCopy > 0x10000 then 0x10000 else toCopy
      let (buf, src) ← src.read toCopy
      let running := if skipCrc then running else crc32 buf running
      let part := if skipCrc then part else crc32 buf part
      let pad := if buf.length ≠ toCopy then List.replicate (toCopy - buf.length) 0 else []
      let (more, r) ← repackLoop packedSize skipCrc fuel (copied + toCopy) src running part
      return (buf ++ pad ++ more, r)
    else .ok ([], src, running, part)

/-- main.py:1542-1558: the check of the CRC behind the copy. -/
def crcReport (flags : Nat) (f : FileFields) (running part : BitVec 32) : List CrcReport :=
  let fileEnd := flags &&& 2 == 0
  if fileEnd = false ∧ f.fileCrc ≠ part.toNat then [.volume]
  else if fileEnd = true ∧ f.fileCrc ≠ running.toNat ∧ ¬ f.method ≠ 0x30 then [.file f.name]
  else []

/-- main.py:1508-1559 `_repack` for a block with these flags and fields: the bytes written, the
source, the running CRC and the reports. -/
def repack (flags : Nat) (f : FileFields) (src : Src) (running : BitVec 32) (skipCrc : Bool) :
    Res (Bytes × Src × BitVec 32 × List CrcReport) := do
  let (out, src, running, part) ← repackLoop f.packedSize skipCrc f.packedSize 0 src running 0
  let reports := if skipCrc then [] else crcReport flags f running part
  return (out, src, running, reports)

/-! ### The recovery record -/

/-- `crc[i] = v`: IndexError behind the end. -/
def setAt {α : Type} (l : List α) (i : Nat) (v : α) : Res (List α) :=
  if i < l.length then .ok (l.set i v) else .error .indexError

/-- main.py:1425-1444: the loop over the sectors of the volume.  `rest` is what is not read yet,
`rs` the parity sectors as numbers.  The budget is the number of bytes left. -/
def recoveryLoop (recSectors : Nat) : Nat → Bytes → Nat → Nat → Bytes → List Nat → Res (Bytes × List Nat)
  | _, [], _, _, crc, rs => .ok (crc, rs)
  | 0, _ :: _, _, _, _, _ => .error .fuel
  | fuel + 1, rest@(_ :: _), cur, slice, crc, rs => do
    let sector := rest.take 512
    let sector := if sector.length ≠ 512 then sector ++ List.replicate (512 - sector.length) 0 else sector
    let c := (~~~ crc32 sector 0).toNat &&& 0xFFFF
    let crc ← setAt crc (cur * 2) (UInt8.ofNat (c &&& 0xFF))
    let crc ← setAt crc (cur * 2 + 1) (UInt8.ofNat (c >>> 8))
    match rs[slice]? with
    | none => throw .indexError
    | some x => do
      let rs := rs.set slice (x ^^^ ofBe sector)
      let slice := if (slice + 1) % recSectors ≠ 0 then slice + 1 else 0
      recoveryLoop recSectors fuel (rest.drop 512) (cur + 1) slice crc rs

/-- main.py:1392-1451 `_write_recovery_record`: what is added to the volume, given the bytes in
it so far.  `int_to_bytes_big` and `int_from_bytes_big` are those of
main.py:71-79. -/
def writeRecoveryRecord (raw : Bytes) (recSectors dataSectors : Nat) (sofar : Bytes) : Res Bytes := do
  if sofar.length = 0 then throw .assertError
  else do
    let (crc, rs) ← recoveryLoop recSectors sofar.length sofar 0 0
      (List.replicate (dataSectors * 2) 0) (List.replicate recSectors 0)
    return raw ++ (crc ++ (rs.map (be 512)).flatten)

end Rescene
