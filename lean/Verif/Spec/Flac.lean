import Verif.Model.Bytes
/-
What a FLAC file is, independently of the reader: the marker "fLaC", metadata blocks (one type
byte, a 24-bit big-endian length and the data; the highest bit of the type marks the last
block), and the audio frames, which start with a byte 255.  In front there can be an ID3v2 tag
and behind an ID3v1 tag of 128 bytes.
-/
namespace Rescene.Spec
open Rescene

/-- A metadata block. -/
structure FlacMeta where
  ty : UInt8
  data : Bytes
  deriving DecidableEq, Repr

def FlacMeta.header (m : FlacMeta) : Bytes := m.ty :: be 3 m.data.length
def FlacMeta.bytes (m : FlacMeta) : Bytes := m.header ++ m.data

/-- A type byte that cannot be mistaken for the start of a tag ("ID3", "TAG"), of the marker
or of an audio frame, and a length that fits. -/
def FlacMeta.Fine (m : FlacMeta) : Prop :=
  m.ty ≠ 0x49 ∧ m.ty ≠ 0x54 ∧ m.ty ≠ 0x66 ∧ m.ty ≠ 0xFF ∧ m.data.length < 2 ^ 24

instance (m : FlacMeta) : Decidable m.Fine := by unfold FlacMeta.Fine; infer_instance

/-- The bytes of the blocks. -/
def metaBytes (l : List FlacMeta) : Bytes := l.flatMap FlacMeta.bytes

/-- "fLaC", blocks, frames. -/
def flacBytes (metas : List FlacMeta) (frames : Bytes) : Bytes :=
  [0x66, 0x4C, 0x61, 0x43] ++ (metaBytes metas ++ frames)

/-- The file ends with an ID3v1 tag. -/
def EndsWithTag (file : Bytes) : Prop :=
  ∃ pre post : Bytes, file = pre ++ ([0x54, 0x41, 0x47] ++ post) ∧ post.length = 125

/-- A FLAC file with these blocks and frames, without tags around it: frames exist and
start with 255, exactly the last block is marked as last, and block types 115, 116 and 117,
which SRS files use, do not occur. -/
structure PlainFlac (metas : List FlacMeta) (frames : Bytes) : Prop where
  fine : ∀ m ∈ metas, m.Fine ∧ m.ty ≠ 0x73 ∧ m.ty ≠ 0x74 ∧ m.ty ≠ 0x75
  last : ∃ l m, metas = l ++ [m] ∧ m.ty.toNat ≥ 128 ∧ ∀ x ∈ l, x.ty.toNat < 128
  frame : ∃ rest, frames = 0xFF :: rest
  noTag : ¬ EndsWithTag (flacBytes metas frames)

/-- An ID3v2 tag: "ID3", two bytes for the version and one for flags, a size of four bytes with
seven bits each, and as many bytes as it says. -/
def IsId3v2 (tag : Bytes) : Prop :=
  ∃ v : Bytes, ∃ a b c d : UInt8, ∃ body : Bytes, v.length = 3 ∧
    a.toNat < 128 ∧ b.toNat < 128 ∧ c.toNat < 128 ∧ d.toNat < 128 ∧
    body.length = a.toNat * 2 ^ 21 + b.toNat * 2 ^ 14 + c.toNat * 2 ^ 7 + d.toNat ∧
    tag = [0x49, 0x44, 0x33] ++ (v ++ ([a, b, c, d] ++ body))

/-- A FLAC file with the same frames: any blocks, optionally an ID3v2 tag in front and an ID3v1
tag behind. -/
def FlacWithFrames (main frames : Bytes) : Prop :=
  ∃ (front : Bytes) (metas : List FlacMeta) (back : Bytes),
    main = front ++ (flacBytes metas frames ++ back) ∧
    (front = [] ∨ IsId3v2 front) ∧ (∀ m ∈ metas, m.Fine) ∧
    ((back = [] ∧ ¬ EndsWithTag main) ∨ (back.length = 128 ∧ [0x54, 0x41, 0x47] <+: back))

end Rescene.Spec
