import Verif.Model.Blocks
/-
The description of a sample and of its tracks in an SRS file:
/repo/resample/main.py:258-535.
-/
namespace Rescene

/-- resample/__init__.py:27-30 `APPNAME`. -/
def resampleApp : Str := str "pyReSample 0.7"

/-- main.py:258-299 `FileData`: the attributes that are stored.  `app` is what was read
from a file; `serialize` always writes `resample.APPNAME`. -/
structure FileData where
  flags : Nat
  app : Str
  name : Str
  size : Nat
  crc : Nat
  deriving DecidableEq, Repr

/-- main.py:301-318 `FileData.serialize`.  `app` is `resample.APPNAME`.  `name` is
`self.sample_name`; only its base name is stored. -/
def fileSerialize (app : Str) (flags : Nat) (name : Str) (size crc : Nat) : Res Bytes := do
  let a ← utf8Enc app
  let n ← utf8Enc (basename name)
  let b0 ← pack 2 flags
  let b1 ← pack 2 a.length
  let b2 ← pack 2 n.length
  let b3 ← pack 8 size
  let b4 ← pack 4 (crc &&& 0xFFFFFFFF)
  return b0 ++ (b1 ++ (a ++ (b2 ++ (n ++ (b3 ++ b4)))))

/-- main.py:283-299: `FileData(buff)`.  An empty buffer is an `AttributeError`. -/
def fileParse (buff : Bytes) : Res FileData :=
  if buff = [] then .error .attrError
  else do
    let flags ← unpackAt 2 buff 0
    let applength ← unpackAt 2 buff 2
    let app ← utf8Dec (slice buff 4 (4 + applength))
    let namelength ← unpackAt 2 buff (4 + applength)
    let name ← utf8Dec (slice buff (4 + applength + 2) (4 + applength + 2 + namelength))
    let offset := 4 + applength + 2 + namelength
    let size ← unpackAt 8 buff offset
    let crc ← unpackAt 4 buff (offset + 8)
    return ⟨flags, app, name, size, crc⟩

/-- main.py:370-419 `TrackData`: the attributes that are stored, and `match_length` and
`check_bytes`, which are not.  The match offset is -1 for "not found". -/
structure TrackData where
  flags : Nat := 0
  number : Nat := 0
  dataLength : Nat := 0
  matchOffset : Int := 0
  sig : Bytes := []
  matchLength : Nat := 0
  checkBytes : Bytes := []
  deriving DecidableEq, Repr

/-- `struct.pack` of a Python integer that may be negative. -/
def packInt (k : Nat) (n : Int) : Res Bytes :=
  if n < 0 then .error .structError else pack k n.toNat

/-- main.py:439-464 `TrackData.serialize`. -/
def trackSerialize (t : TrackData) : Res Bytes := do
  let b0 ← pack 2 t.flags
  let b1 ← (if 2 ^ 16 ≤ t.number then pack 4 t.number else pack 2 t.number : Res Bytes)
  let b2 ← (if hasFlag t.flags 4 = true then pack 8 t.dataLength else pack 4 t.dataLength : Res Bytes)
  let b3 ← packInt 8 t.matchOffset
  let b4 ← pack 2 t.sig.length
  return b0 ++ (b1 ++ (b2 ++ (b3 ++ (b4 ++ t.sig))))

/-- main.py:383-419: `TrackData(buff)`; an empty buffer gives the default values. -/
def trackParse (buff : Bytes) : Res TrackData :=
  if buff = [] then .ok {}
  else do
    let flags ← unpackAt 2 buff 0
    let (number, e) ← (if hasFlag flags 8 = true then do let n ← unpackAt 4 buff 2; return (n, 2)
      else do let n ← unpackAt 2 buff 2; return (n, 0) : Res (Nat × Nat))
    let add := if hasFlag flags 4 = true then 8 else 4
    let dataLength ← unpackAt add buff (e + 4)
    let matchOffset ← unpackAt 8 buff (e + 4 + add)
    let sigLength ← unpackAt 2 buff (e + 4 + add + 8)
    return { flags := flags, number := number, dataLength := dataLength,
             matchOffset := matchOffset,
             sig := slice buff (e + 14 + add) (e + 14 + add + sigLength) }

end Rescene
