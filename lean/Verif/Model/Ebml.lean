import Verif.Model.Bytes
/-
EBML integers and Matroska lacing: /repo/resample/ebml.py:46-155, and the ID3 tag size:
/repo/resample/mp3.py:38-57.

A stream is the list of bytes that are still to be read; reading functions return what
is left of it.
-/
namespace Rescene

/-- ebml.py:46-57 `GetUIntLength`: one plus the number of leading zero bits of the length
descriptor byte, 0 when no bit is set.  The assertions cannot fail for a byte. -/
def uintLength (d : Nat) : Nat :=
  match (List.range 8).find? (fun i => d &&& (0x80 >>> i) != 0) with
  | some i => i + 1
  | none => 0

/-- `BE_BYTE.unpack(stream.read(1))[0]`: `struct.error` at the end of the stream. -/
def readByte : Bytes → Res (Nat × Bytes)
  | [] => .error .structError
  | b :: t => .ok (b.toNat, t)

/-- ebml.py:71-72: the loop of `GetEbmlUInt` over the `n` offsets that are left. -/
def ebmlUIntLoop (buff : Bytes) (size : Nat) : (n off : Nat) → Res Nat
  | 0, _ => .ok size
  | n + 1, off => do
    let b ← unpackBeAt 1 buff off
    ebmlUIntLoop buff ((size <<< 8) + b) n (off + 1)

/-- ebml.py:65-74 `GetEbmlUInt`. -/
def getEbmlUInt (buff : Bytes) (offset count : Nat) : Res Nat := do
  let b ← unpackBeAt 1 buff offset
  ebmlUIntLoop buff (b &&& (0xFF >>> count)) (count - 1) (offset + 1)

/-- ebml.py:84-85: the loop of `GetEbmlUIntStream`. -/
def ebmlStreamLoop (size : Nat) : Nat → Bytes → Res (Nat × Bytes)
  | 0, s => .ok (size, s)
  | n + 1, s => do
    let (b, s) ← readByte s
    ebmlStreamLoop ((size <<< 8) + b) n s

/-- ebml.py:76-87 `GetEbmlUIntStream`: value, bytes consumed, rest of the stream. -/
def getEbmlUIntStream (s : Bytes) : Res (Nat × Nat × Bytes) := do
  let (first, s) ← readByte s
  let consumed := uintLength first
  let (size, s) ← ebmlStreamLoop (first &&& (0xFF >>> consumed)) (consumed - 1) s
  return (size, consumed, s)

/-- ebml.py:92-97: the first `i` in `range(1, 8)` whose length mask is larger than the
number. -/
def ebmlDescriptor (number : Nat) : Option Nat :=
  [1, 2, 3, 4, 5, 6, 7].find? (fun i => number < 1 <<< (i * 8 - i))

/-- ebml.py:89-103 `MakeEbmlUInt`, for the non-negative numbers it is called with.
`length_descriptor` is unbound when no mask fits. -/
def makeEbmlUInt (number : Nat) : Res Bytes :=
  match ebmlDescriptor number with
  | none => .error .unboundLocal
  | some i =>
    let number := number ||| 1 <<< (i * 8 - i)
    .ok ((List.range i).map fun j => UInt8.ofNat ((number >>> ((i - (j + 1)) * 8)) &&& 0xFF))

/-- ebml.py:180-184 `EbmlLaceType`. -/
inductive Lace where
  | none | xiph | fixed | ebml
  deriving DecidableEq, Repr

/-- ebml.py:405-406: the lace type in the flags byte of a block. -/
def laceOf (flags : Nat) : Lace :=
  match flags &&& 6 with
  | 0 => .none
  | 2 => .xiph
  | 4 => .fixed
  | _ => .ebml

/-- ebml.py:125-129: one Xiph size: value, bytes consumed, rest. -/
def xiphRead : Bytes → Res (Nat × Nat × Bytes)
  | [] => .error .structError
  | b :: t =>
    if b.toNat = 0xFF then do
      let (v, n, t) ← xiphRead t
      return (v + 0xFF, n + 1, t)
    else .ok (b.toNat, 1, t)

/-- Sum of frame sizes. -/
def sumInt (l : List Int) : Int := l.foldr (· + ·) 0

/-- ebml.py:118-153: the loop over the frames.  `left` frames are still to be sized,
`sizes` are the sizes so far (`i = sizes.length`). -/
def laceLoop (t : Lace) (count : Nat) (dataLen : Int) :
    Nat → List Int → Nat → Bytes → Res (List Int × Nat × Bytes)
  | 0, sizes, consumed, s => .ok (sizes, consumed, s)
  | left + 1, sizes, consumed, s =>
    match t with
    | .none => laceLoop t count dataLen left (sizes ++ [dataLen]) consumed s
    | .fixed => laceLoop t count dataLen left (sizes ++ [dataLen.fdiv count]) consumed s
    | .xiph =>
      if sizes.length < count - 1 then do
        let (v, n, s) ← xiphRead s
        laceLoop t count dataLen left (sizes ++ [(v : Int)]) (consumed + n) s
      else
        laceLoop t count dataLen left (sizes ++ [dataLen - consumed - sumInt sizes]) consumed s
    | .ebml =>
      match sizes.getLast? with
      | Option.none => do          -- i == 0
        let (v, bc, s) ← getEbmlUIntStream s
        laceLoop t count dataLen left (sizes ++ [(v : Int)]) (consumed + bc) s
      | some prev =>
        if sizes.length < count - 1 then do
          let (v, bc, s) ← getEbmlUIntStream s
          if bc = 0 then throw .assertError
          else
            let d : Int := (v : Int) - ((1 <<< (bc * 8 - (bc + 1)) : Nat) - 1)
            laceLoop t count dataLen left (sizes ++ [prev + d]) (consumed + bc) s
        else
          laceLoop t count dataLen left (sizes ++ [dataLen - consumed - sumInt sizes]) consumed s

/-- ebml.py:105-155 `GetBlockFrameLengths`: frame sizes, bytes consumed, rest of the stream.
Sizes are integers: they can become negative. -/
def blockFrameLengths (t : Lace) (dataLen : Int) (s : Bytes) : Res (List Int × Nat × Bytes) :=
  if t = .none then laceLoop t 1 dataLen 1 [] 0 s
  else do
    let (n, s) ← readByte s
    laceLoop t (n + 1) dataLen (n + 1) [] 1 s

/-- mp3.py:38-49 `decode_id3_size`: `ord` of an empty slice is a `TypeError`. -/
def decodeId3Size (b : Bytes) : Res Nat :=
  match b with
  | b0 :: b1 :: b2 :: b3 :: _ =>
    .ok (((b0.toNat * 128 + b1.toNat) * 128 + b2.toNat) * 128 + b3.toNat)
  | _ => .error .typeError

/-- mp3.py:51-57 `encode_id3_size`: `result[-1-i]` is the `i`-th group of 7 bits. -/
def encodeId3Size (size : Nat) : Bytes :=
  ((List.range 4).map fun i => UInt8.ofNat ((size >>> (i * 7)) &&& 0x7F)).reverse

end Rescene
