import Verif.Model.Bytes
/-
The size of an image: `get_image_size`, `test_jpeg` and `fixed_resolution_cover` of
/repo/bin/pyrescene.py.
-/
namespace Rescene

/-- The kinds of images that matter (`imghdr.what`). -/
inductive ImageKind where
  | png | gif | jpeg | other
deriving DecidableEq, Repr

/-- pyrescene.py:384-394 `test_jpeg`, added to the tests of `imghdr`.  The third test compares bytes with
a `str`, which is never equal in Python 3. -/
def testJpeg (h : Bytes) : Option ImageKind :=
  if h.take 4 = [0xFF, 0xD8, 0xFF, 0xE2] ∧ (h.drop 6).take 11 = [0x49, 0x43, 0x43, 0x5F, 0x50, 0x52, 0x4F, 0x46, 0x49, 0x4C, 0x45] then some .jpeg
  else if h.take 4 = [0xFF, 0xD8, 0xFF, 0xEE] ∧ (h.drop 6).take 5 = [0x41, 0x64, 0x6F, 0x62, 0x65] then some .jpeg
  else none

/-- `imghdr.what(None, head)`: the tests of the library (`std`, a parameter) and then `test_jpeg`. -/
def imageKind (std : Bytes → Option ImageKind) (head : Bytes) : Option ImageKind :=
  match std head with
  | some k => some k
  | none => testJpeg head

/-- pyrescene.py:417-420: the next byte that is not 0xFF, and what follows; `none` is the `TypeError` of
`ord(b"")`. -/
def skipFF : Bytes → Option (UInt8 × Bytes)
  | [] => none
  | b :: rest => if b = 0xFF then skipFF rest else some (b, rest)

/-- pyrescene.py:415: the loop goes on with this type. -/
def notFrame (t : UInt8) : Bool := !(decide (0xC0 ≤ t) && decide (t ≤ 0xCF)) || (t == 0xC4 || t == 0xC8 || t == 0xCC)

/-- pyrescene.py:416-421: `seek(size, 1)` from `pos` (before the start is an error), a marker and a size:
the type, the new `size` and the new place. -/
def jpegStep (data : Bytes) (pos : Nat) (size : Int) : Option (UInt8 × Int × Nat) :=
  if (pos : Int) + size < 0 then none
  else
    match skipFF (data.drop ((pos : Int) + size).toNat) with
    | some (t, hi :: lo :: rest) => some (t, ((hi.toNat * 256 + lo.toNat : Nat) : Int) - 2, data.length - rest.length)
    | _ => none

/-- pyrescene.py:415-421: the loop, with a step budget; `none` is an exception, which is caught. -/
def jpegLoop (data : Bytes) : Nat → Nat → Int → UInt8 → Res (Option Nat)
  | 0, _, _, _ => .error .fuel
  | fuel + 1, pos, size, t =>
    if notFrame t then
      match jpegStep data pos size with
      | none => .ok none
      | some (t, size, pos) => jpegLoop data fuel pos size t
    else .ok (some pos)

/-- pyrescene.py:410-426: width and height of a JPEG image. -/
def jpegSize (data : Bytes) : Res (Option (Int × Int)) := do
  match ← jpegLoop data (data.length + 2) 0 2 0 with
  | none => return none
  | some pos =>
    match data.drop (pos + 1) with
    | h1 :: h0 :: w1 :: w0 :: _ => return some (((w1.toNat * 256 + w0.toNat : Nat) : Int), ((h1.toNat * 256 + h0.toNat : Nat) : Int))
    | _ => return none

/-- `struct.unpack(">i", ...)` on the bytes from `k`. -/
def signedBE (b : Bytes) (k : Nat) : Int :=
  match b.drop k with
  | b3 :: b2 :: b1 :: b0 :: _ =>
    let n := ((b3.toNat * 256 + b2.toNat) * 256 + b1.toNat) * 256 + b0.toNat
    if n < 2 ^ 31 then (n : Int) else (n : Int) - 2 ^ 32
  | _ => 0

/-- `struct.unpack("<H", ...)` on the bytes from `k`. -/
def shortLE (b : Bytes) (k : Nat) : Int :=
  match b.drop k with
  | b0 :: b1 :: _ => ((b1.toNat * 256 + b0.toNat : Nat) : Int)
  | _ => 0

/-- pyrescene.py:396-429 `get_image_size`: width and height, or `None`. -/
def imageSize (std : Bytes → Option ImageKind) (data : Bytes) : Res (Option (Int × Int)) :=
  let head := data.take 24
  if head.length ≠ 24 then .ok none
  else
    match imageKind std head with
    | some .png => if signedBE head 4 ≠ 0x0D0A1A0A then .ok none else .ok (some (signedBE head 16, signedBE head 20))
    | some .gif => .ok (some (shortLE head 6, shortLE head 8))
    | some .jpeg => jpegSize data
    | _ => .ok none

/-- pyrescene.py:375-381 `fixed_resolution_cover`: unpacking `None` is the caught `TypeError`. -/
def siteCover (std : Bytes → Option ImageKind) (data : Bytes) : Res Bool := do
  match ← imageSize std data with
  | some (w, h) => return w == 630 && h == 1200
  | none => return false

end Rescene
