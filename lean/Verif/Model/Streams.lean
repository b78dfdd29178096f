import Verif.Model.Reader
import Verif.Model.Volumes
import Verif.Spec.Streams
/-
Files in RAR volumes, fake files and the OSO hash: /repo/rescene/rarstream.py and
/repo/rescene/osohash.py.  The types of calls and results are those of Spec/Streams.lean.
-/
namespace Rescene
open Spec

/-! ### RarStream -/

/-- rarstream.py:281-296 `_RarVolume`: the contents of the archive and the place of a part of
the packed file in it.  `stop` is -1 for an empty first part. -/
structure Vol where
  archive : Bytes
  start : Int
  stop : Int
  offset : Nat
  deriving DecidableEq, Repr

/-- rarstream.py:54-64: the attributes of a `RarStream`. -/
structure RStream where
  vols : List Vol
  cur : Option Vol
  len : Nat
  pos : Int
  deriving DecidableEq, Repr

/-- rarstream.py:182-189, 341-347: the wanted position. -/
def destOf (len pos offset : Int) : Whence → Int
  | .set => offset
  | .cur => pos + offset
  | .fromEnd => len + offset

/-- rarstream.py:192-195: is the position in the current part? -/
def inCurrent (cur : Option Vol) (pos : Int) : Bool :=
  match cur with
  | none => false
  | some v => !(decide (pos < v.start) || decide (pos > v.stop))

/-- rarstream.py:170-210 `seek`. -/
def RStream.seek (s : RStream) (offset : Int) (w : Whence) : Res (Int × RStream) :=
  let destination := destOf s.len s.pos offset w
  if destination < 0 then .error .indexError
  else
    let s := { s with pos := destination }
    if inCurrent s.cur s.pos then .ok (s.pos, s)
    else .ok (s.pos, { s with cur := s.vols.find? fun v => decide (s.pos ≥ v.start) && decide (s.pos ≤ v.stop) })

/-- `f.seek(off, 0)` and `f.read(n)` on the archive. -/
def readFrom (data : Bytes) (off n : Int) : Res Bytes :=
  if off < 0 then .error .valueError
  else if n < 0 then .ok (data.drop off.toNat)
  else .ok (readAt data off.toNat n.toNat)

/-- rarstream.py:228-255: the loop of `read`; `size` is negative when it is not set. -/
def RStream.readLoop (sizeSet : Bool) : Nat → RStream → Int → Res (Bytes × RStream)
  | 0, _, _ => .error .fuel
  | fuel + 1, s, size =>
    match s.cur with
    | none => .error .attrError
    | some v => do
      let n := v.stop - s.pos + 1
      let n := if sizeSet then min size n else n
      let size := if sizeSet then size - n else size
      let data ← readFrom v.archive (v.offset + (s.pos - v.start)) n
      let (_, s) ← s.seek n .cur
      if n ≤ 0 ∨ (size ≤ 0 ∧ sizeSet = true) ∨ s.pos ≥ s.len then return (data, s)
      else do
        let (more, s) ← RStream.readLoop sizeSet fuel s size
        return (data ++ more, s)

/-- rarstream.py:212-256 `read`.  The budget of the loop is one more than the number of parts. -/
def RStream.read (s : RStream) (size : Int) : Res (Bytes × RStream) :=
  match s.cur with
  | none => .ok ([], s)
  | some _ => RStream.readLoop (decide (size ≥ 0)) (s.vols.length + 1) s size

/-- rarstream.py:80-90, 91-128 `_process`: the parts in the blocks of one volume.  The name is
`none` while it is not known. -/
def rsBlocks (archive : Bytes) (compressed : Bool) : Option Str → List Vol → Nat → List Block → Res (Option Str × List Vol × Nat)
  | name, vols, len, [] => .ok (name, vols, len)
  | name, vols, len, b :: l =>
    if b.btype = 0x74 then
      match b.kind with
      | .packed f =>
        if f.method ≠ 0x30 ∧ compressed = false then .error .attrError
        else
          let name := match name with
            | none => f.name
            | some n => if n = [] then f.name else n
          if name = f.name then
            rsBlocks archive compressed (some name)
              (vols ++ [⟨archive, len, (len : Int) + f.packedSize - 1, b.pos + b.hsize⟩]) (len + f.packedSize) l
          else rsBlocks archive compressed (some name) vols len l
      | _ => .error .attrError
    else rsBlocks archive compressed name vols len l

/-- rarstream.py:99-108: is old style naming used? -/
def rsOldStyle (l : List Block) : Bool := l.any fun b => b.btype == 0x73 && !hasFlag b.flags 0x10

/-- rarstream.py:91-128 `_process` on one volume: the new parts, the length and the naming. -/
def rsProcess (archive : Bytes) (name : Option Str) (compressed : Bool) (vols : List Vol) (len : Nat) : Res (List Vol × Nat × Bool) := do
  let name := name.map fun n => n.map fun c => if c = 0x2F then 0x5C else c
  let blocks ← readAll archive
  let (_, vols, len) ← rsBlocks archive compressed name vols len blocks
  return (vols, len, rsOldStyle blocks)

/-- rarstream.py:71-74: the volumes, as long as there is a next one.  `fs` gives the contents
of regular files. -/
def rsVolumes (dig : Nat → Bool) (fs : Str → Option Bytes) (name : Option Str) (compressed : Bool) :
    Nat → Str → List Vol → Nat → Res (List Vol × Nat)
  | 0, _, _, _ => .error .fuel
  | fuel + 1, path, vols, len =>
    match fs path with
    | none => .ok (vols, len)
    | some archive => do
      let (vols, len, old) ← rsProcess archive name compressed vols len
      let path ← nextArchive dig path old
      rsVolumes dig fs name compressed fuel path vols len

/-- rarstream.py:37-52 `_check`. -/
def rsCheck : List Block → Res Bool
  | [] => .ok false
  | b :: l =>
    if b.btype = 0x74 then
      if hasFlag b.flags 1 then .error .attrError else .ok true
    else rsCheck l

/-- rarstream.py:66-69: the check of the first volume, if there is to be one.  A missing volume
is an error of the reader. -/
def rsGood (fs : Str → Option Bytes) (first : Str) (middle : Bool) : Res Bool :=
  if middle then .ok true
  else
    match fs first with
    | none => .error .fileNotFound
    | some d => do
      let blocks ← readAll d
      rsCheck blocks

/-- rarstream.py:54-80: the constructor. -/
def rsOpen (dig : Nat → Bool) (fs : Str → Option Bytes) (fuel : Nat) (first : Str) (name : Option Str) (middle compressed : Bool) : Res RStream := do
  let good ← rsGood fs first middle
  if good = false then throw .attrError
  else do
    let (vols, len) ← rsVolumes dig fs name compressed fuel first [] 0
    match vols with
    | [] => throw .attrError
    | v :: _ => return ⟨vols, some v, len, 0⟩

/-- Any call on the stream; an exception of a seek is a refusal.  An exception of `read` would
be an error of the stream itself. -/
def RStream.step (s : RStream) : FileOp → Res (FileOut × RStream)
  | .seek offset w =>
    match s.seek offset w with
    | .error _ => .ok (.refused, s)
    | .ok (p, s) => .ok (.position p.toNat, s)
  | .read size => do
    let (b, s) ← s.read size
    return (.bytes b, s)
  | .tell => .ok (.position s.pos.toNat, s)

/-- A sequence of calls. -/
def RStream.run (s : RStream) : List FileOp → Res (List FileOut)
  | [] => .ok []
  | op :: ops => do
    let (o, s) ← s.step op
    let r ← RStream.run s ops
    return o :: r

/-! ### FakeFile -/

/-- rarstream.py:304-308: size and position of a `FakeFile`. -/
structure Fake where
  size : Int
  pos : Int
  deriving DecidableEq, Repr

/-- rarstream.py:328-353 `seek`. -/
def Fake.seek (s : Fake) (offset : Int) (w : Whence) : Res (Int × Fake) :=
  let destination := destOf s.size s.pos offset w
  if destination < 0 then .error .indexError
  else if destination ≥ s.size then .error .indexError
  else .ok (destination, { s with pos := destination })

/-- `bytes(bytearray(n))`. -/
def genNull (n : Int) : Res Bytes := if n < 0 then .error .valueError else .ok (List.replicate n.toNat 0)

/-- rarstream.py:355-378 `read`. -/
def Fake.read (s : Fake) (size : Int) : Res (Bytes × Fake) :=
  if size < 0 then do
    let b ← genNull (s.size - s.pos)
    return (b, { s with pos := s.size })
  else
    let remainder := s.size - s.pos
    if remainder = 0 then do
      let b ← genNull 0
      return (b, s)
    else if remainder ≥ size then do
      let b ← genNull size
      return (b, { s with pos := s.pos + size })
    else do
      let b ← genNull remainder
      return (b, { s with pos := s.size })

/-- Any call on the fake file. -/
def Fake.step (s : Fake) : FileOp → Res (FileOut × Fake)
  | .seek offset w =>
    match s.seek offset w with
    | .error _ => .ok (.refused, s)
    | .ok (p, s) => .ok (.position p.toNat, s)
  | .read size => do
    let (b, s) ← s.read size
    return (.bytes b, s)
  | .tell => .ok (.position s.pos.toNat, s)

/-- A sequence of calls. -/
def Fake.run (s : Fake) : List FileOp → Res (List FileOut)
  | [] => .ok []
  | op :: ops => do
    let (o, s) ← s.step op
    let r ← Fake.run s ops
    return o :: r

/-! ### The OSO hash -/

/-- osohash.py:94-99: the loop, `n` rounds from `index`. -/
def osoSum (bufBegin bufEnd : Bytes) : Nat → Nat → Nat → Res Nat
  | 0, _, h => .ok h
  | n + 1, index, h => do
    let a ← unpackAt 8 bufBegin index
    let h := (h + a) &&& 0xFFFFFFFFFFFFFFFF
    let b ← unpackAt 8 bufEnd index
    let h := (h + b) &&& 0xFFFFFFFFFFFFFFFF
    osoSum bufBegin bufEnd n (index + 8) h

/-- Lower case hexadecimal digit. -/
def hexLow (n : Nat) : Nat := if n < 10 then 0x30 + n else 0x61 + (n - 10)

/-- `"%016x" % n` for n below 2^64: `k` digits. -/
def hexDigits : Nat → Nat → Str
  | 0, _ => []
  | k + 1, n => hexDigits k (n / 16) ++ [hexLow (n % 16)]

/-- A call that has to give bytes. -/
def wantBytes {σ : Type} (step : σ → FileOp → Res (FileOut × σ)) (s : σ) (n : Int) : Res (Bytes × σ) := do
  let (o, s) ← step s (.read n)
  match o with
  | .bytes b => return (b, s)
  | _ => throw .other

/-- A call that has to give a position; a refused seek is an exception. -/
def wantPos {σ : Type} (step : σ → FileOp → Res (FileOut × σ)) (s : σ) (op : FileOp) : Res (Nat × σ) := do
  let (o, s) ← step s op
  match o with
  | .position p => return (p, s)
  | _ => throw .envError

/-- osohash.py:68-101 `_osorg_hash` with osohash.py:58-66 `_length`, on any stream. -/
def osoHash {σ : Type} (step : σ → FileOp → Res (FileOut × σ)) (s : σ) : Res (Str × Nat) := do
  let (orig, s) ← wantPos step s .tell
  let (_, s) ← wantPos step s (.seek 0 .fromEnd)
  let (size, s) ← wantPos step s .tell
  let (_, s) ← wantPos step s (.seek orig .set)
  if size < 64 * 1024 then throw .valueError
  else do
    let (bufBegin, s) ← wantBytes step s (64 * 1024)
    let (_, s) ← wantPos step s (.seek (-(64 * 1024)) .fromEnd)
    let (bufEnd, _) ← wantBytes step s (64 * 1024)
    let h ← osoSum bufBegin bufEnd (64 * 1024 / 8) 0 size
    return (hexDigits 16 h, size)

/-- A regular file as a stream. -/
def plainStep (data : Bytes) (pos : Nat) (op : FileOp) : Res (FileOut × Nat) := .ok (fileStep regular data pos op)

end Rescene
