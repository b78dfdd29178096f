import Verif.Model.Bytes
/-
What the files of images look like, as far as their size goes.
-/
namespace Rescene.Spec
open Rescene

/-- Two bytes, most significant first. -/
def be16 (n : Nat) : Bytes := [UInt8.ofNat (n / 256), UInt8.ofNat n]

/-- Four bytes, most significant first. -/
def be32 (n : Nat) : Bytes := [UInt8.ofNat (n / 16777216), UInt8.ofNat (n / 65536), UInt8.ofNat (n / 256), UInt8.ofNat n]

/-- The markers of frames (ITU T.81, table B.1): SOF0-SOF3, SOF5-SOF7, SOF9-SOF11, SOF13-SOF15. -/
def frameMarkers : List UInt8 := [0xC0, 0xC1, 0xC2, 0xC3, 0xC5, 0xC6, 0xC7, 0xC9, 0xCA, 0xCB, 0xCD, 0xCE, 0xCF]

/-- A segment of a JPEG file: fill bytes, a marker and what belongs to it. -/
structure Segment where
  fill : Nat
  marker : UInt8
  payload : Bytes

/-- Any number of fill bytes 0xFF, 0xFF, the marker, the length (with its own two bytes) and the rest. -/
def Segment.bytes (s : Segment) : Bytes :=
  List.replicate (s.fill + 1) 0xFF ++ s.marker :: be16 (s.payload.length + 2) ++ s.payload

/-- A segment before the frame: a marker that does not start a frame. -/
def Segment.Before (s : Segment) : Prop :=
  s.marker ≠ 0xFF ∧ s.marker ∉ frameMarkers ∧ s.payload.length + 2 < 65536

/-- A JPEG file: start of image, segments, and a frame with its length, precision, height and width. -/
structure Jpeg where
  segments : List Segment
  fill : Nat
  marker : UInt8
  length : Nat
  precision : UInt8
  height : Nat
  width : Nat
  rest : Bytes

def Jpeg.bytes (j : Jpeg) : Bytes :=
  [0xFF, 0xD8] ++ j.segments.flatMap Segment.bytes ++ List.replicate (j.fill + 1) 0xFF
    ++ j.marker :: be16 j.length ++ j.precision :: be16 j.height ++ be16 j.width ++ j.rest

def Jpeg.Valid (j : Jpeg) : Prop :=
  (∀ s ∈ j.segments, s.Before) ∧ j.marker ∈ frameMarkers ∧ j.length < 65536 ∧ j.height < 65536 ∧ j.width < 65536

/-- The start of a PNG file: signature, length and type of the first chunk, width and height. -/
def pngBytes (chunk : Bytes) (width height : Nat) (rest : Bytes) : Bytes :=
  [0x89, 0x50, 0x4E, 0x47, 0x0D, 0x0A, 0x1A, 0x0A] ++ chunk ++ be32 width ++ be32 height ++ rest

/-- The start of a GIF file: six bytes, width and height with the least significant byte first. -/
def gifBytes (sign : Bytes) (width height : Nat) (rest : Bytes) : Bytes :=
  sign ++ (be16 width).reverse ++ (be16 height).reverse ++ rest

end Rescene.Spec
