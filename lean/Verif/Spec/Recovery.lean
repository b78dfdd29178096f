import Verif.Model.Crc
/-
The recovery record of a RAR volume, as documented in /repo/rescene/main.py:1394-1406: the data
before it is cut into sectors of 512 bytes (the last one filled up with zeros).  The record has
two bytes for every protected sector, the low half of the CRC-32 register, and then the parity
sectors: sector number i belongs to slice i modulo the number of parity sectors, and the parity
sector of a slice is the exclusive or of its sectors.
-/
namespace Rescene.Spec

/-- Sector `i` of the data: byte `k` is byte `512 i + k` of the data, or zero behind its end. -/
def sectorAt (data : Bytes) (i : Nat) : Bytes := (List.range 512).map fun k => (data[512 * i + k]?).getD 0

/-- The number of sectors. -/
def sectorCount (data : Bytes) : Nat := (data.length + 511) / 512

/-- Exclusive or, byte by byte. -/
def xorBytes (a b : Bytes) : Bytes := List.zipWith (· ^^^ ·) a b

/-- The exclusive or of sectors. -/
def xorAll (l : List Bytes) : Bytes := l.foldl xorBytes (List.replicate 512 0)

/-- The two bytes for a sector: the low 16 bits of the complement of its CRC-32, low byte first. -/
def sectorCrc (s : Bytes) : Bytes :=
  let c := (~~~ crc32 s 0).toNat
  [UInt8.ofNat (c % 256), UInt8.ofNat (c / 256 % 256)]

/-- The sectors of slice `j`. -/
def sliceSectors (data : Bytes) (rs j : Nat) : List Bytes :=
  ((List.range (sectorCount data)).filter fun i => i % rs == j).map (sectorAt data)

/-- The data of a recovery record with `rs` parity sectors for `ds` protected sectors; there are
zeros for sectors that do not exist. -/
def recoveryData (data : Bytes) (rs ds : Nat) : Bytes :=
  ((List.range ds).flatMap fun i => if i < sectorCount data then sectorCrc (sectorAt data i) else [0, 0]) ++
    (List.range rs).flatMap fun j => xorAll (sliceSectors data rs j)

end Rescene.Spec
