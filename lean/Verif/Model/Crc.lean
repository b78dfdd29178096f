import Verif.Model.Bytes
/-
CRC-32: the function of Python's `zlib`, /repo/rescene/utility.py:517-529
`calculate_crc32` and /repo/rescene/crc32combine.py:84-135 `crc32_combine`.
-/
namespace Rescene

/-- One bit of the CRC-32 register (reflected polynomial 0xEDB88320). -/
def crcStep (c : BitVec 32) : BitVec 32 :=
  if c.getLsbD 0 then (c >>> 1) ^^^ 0xEDB88320#32 else c >>> 1

/-- Eight bits. -/
def crcStep8 (c : BitVec 32) : BitVec 32 :=
  crcStep (crcStep (crcStep (crcStep (crcStep (crcStep (crcStep (crcStep c)))))))

/-- One byte of data. -/
def crcByte (c : BitVec 32) (b : UInt8) : BitVec 32 := crcStep8 (c ^^^ BitVec.ofNat 32 b.toNat)

/-- `zlib.crc32(data, start)` of the Python standard library, by its definition: the
register starts with the complement of `start` and is complemented at the end. -/
def crc32 (data : Bytes) (start : BitVec 32) : BitVec 32 := ~~~ (data.foldl crcByte (~~~ start))

/-- utility.py:522-528: `x = f.read(n)` until nothing is read, with a step budget. -/
def crcChunks (n : Nat) : Nat → Bytes → BitVec 32 → Res (BitVec 32)
  | 0, _, _ => .error .fuel
  | fuel + 1, rest, crc =>
    let x := rest.take n
    if x = [] then .ok crc else crcChunks n fuel (rest.drop n) (crc32 x crc)

/-- utility.py:517-529 `calculate_crc32` on a file with the given contents. -/
def calculateCrc32 (data : Bytes) : Res (BitVec 32) := crcChunks 65536 (data.length + 1) data 0

/-- crc32combine.py:97-105 `matrix_times`.  The matrices have 32 rows and the vectors 32
bits, so the loop ends no later than the rows; it is written over the rows. -/
def matrixTimes : List (BitVec 32) → BitVec 32 → BitVec 32
  | [], _ => 0
  | row :: rows, v => (if v.getLsbD 0 then row else 0) ^^^ matrixTimes rows (v >>> 1)

/-- crc32combine.py:108, 111, 117, 127: square a matrix. -/
def matrixSquare (m : List (BitVec 32)) : List (BitVec 32) := m.map (matrixTimes m)

/-- crc32combine.py:94: the operator for one zero bit. -/
def oneZeroBit : List (BitVec 32) :=
  0xEDB88320#32 :: (List.range 31).map fun i => 1#32 <<< i

/-- crc32combine.py:115-132: the loop over the bits of `len2`, with a step budget. -/
def combineLoop : Nat → List (BitVec 32) → BitVec 32 → Nat → Res (BitVec 32)
  | 0, _, _, _ => .error .fuel
  | fuel + 1, odd, crc1, len2 =>
    if len2 = 0 then .ok crc1
    else
      let even := matrixSquare odd
      let crc1 := if len2 % 2 = 1 then matrixTimes even crc1 else crc1
      let len2 := len2 / 2
      if len2 = 0 then .ok crc1
      else
        let odd := matrixSquare even
        let crc1 := if len2 % 2 = 1 then matrixTimes odd crc1 else crc1
        combineLoop fuel odd crc1 (len2 / 2)

/-- crc32combine.py:84-135 `crc32_combine`. -/
def crc32Combine (crc1 crc2 : BitVec 32) (len2 : Int) : Res (BitVec 32) :=
  if len2 ≤ 0 then .ok crc1
  else do
    let even := matrixSquare oneZeroBit
    let odd := matrixSquare even
    let c ← combineLoop (len2.toNat + 1) odd crc1 len2.toNat
    return c ^^^ crc2

end Rescene
