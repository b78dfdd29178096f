import Verif.Model.Bytes
/-
What an MP4 file is, independently of the reader: a sequence of atoms (ISO/IEC 14496-12 boxes), one
of which is "mdat" with the stream data, while the tables of the tracks are in atoms inside others.
-/
namespace Rescene.Spec
open Rescene

/-- How the size of an atom is stored: in 32 bits, in 64 bits, or not at all for an atom up to the
end of the file. -/
inductive MovForm
  | narrow | wide | unsized
  deriving DecidableEq, Repr

/-- The header of an atom with `n` bytes of contents. -/
def movHeader (form : MovForm) (type : Bytes) (n : Nat) : Bytes :=
  match form with
  | .narrow => be 4 (8 + n) ++ type
  | .wide => be 4 1 ++ (type ++ be 8 (16 + n))
  | .unsized => be 4 0 ++ type

/-- The size can be stored. -/
def MovForm.Holds (form : MovForm) (n : Nat) : Prop :=
  match form with
  | .narrow => 8 + n < 2 ^ 32
  | .wide => 16 + n < 2 ^ 64
  | .unsized => True

instance decidableMovHolds (form : MovForm) (n : Nat) : Decidable (form.Holds n) := by cases form <;> unfold MovForm.Holds <;> infer_instance

/-- "moov", "trak", "mdia", "minf" and "stbl": atoms with atoms in them. -/
def containers : List Bytes :=
  [[0x6D, 0x6F, 0x6F, 0x76], [0x74, 0x72, 0x61, 0x6B], [0x6D, 0x64, 0x69, 0x61], [0x6D, 0x69, 0x6E, 0x66], [0x73, 0x74, 0x62, 0x6C]]

def mdatType : Bytes := [0x6D, 0x64, 0x61, 0x74]
def nullType : Bytes := [0, 0, 0, 0]
def tkhdType : Bytes := [0x74, 0x6B, 0x68, 0x64]
def stcoType : Bytes := [0x73, 0x74, 0x63, 0x6F]
def co64Type : Bytes := [0x63, 0x6F, 0x36, 0x34]
def stscType : Bytes := [0x73, 0x74, 0x73, 0x63]
def stszType : Bytes := [0x73, 0x74, 0x73, 0x7A]
def stz2Type : Bytes := [0x73, 0x74, 0x7A, 0x32]
/-- "SRSF" and "SRST". -/
def ownTypes : List Bytes := [[0x53, 0x52, 0x53, 0x46], [0x53, 0x52, 0x53, 0x54]]

/-- The parts of a file in order: the headers of atoms with atoms in them, and the other atoms. -/
inductive MovPart
  | enter (form : MovForm) (type : Bytes) (n : Nat)
  | leaf (form : MovForm) (type data : Bytes)
  deriving DecidableEq, Repr

def MovPart.type : MovPart → Bytes
  | .enter _ type _ => type
  | .leaf _ type _ => type

def MovPart.bytes : MovPart → Bytes
  | .enter form type n => movHeader form type n
  | .leaf form type data => movHeader form type data.length ++ data

def movBytes (parts : List MovPart) : Bytes := parts.flatMap MovPart.bytes

def MovPart.Ok : MovPart → Prop
  | .enter form type n => type ∈ containers ∧ form.Holds n
  | .leaf form type data => type.length = 4 ∧ type ∉ containers ∧ form.Holds data.length

instance decidableMovOk (p : MovPart) : Decidable p.Ok := by cases p <;> unfold MovPart.Ok <;> infer_instance

/-- Atoms without size are the last ones.  (Some samples have atoms of eight zero bytes before
"mdat".) -/
def Ends : List MovPart → Prop
  | [] => True
  | .enter .. :: ps => Ends ps
  | .leaf form type data :: ps =>
    (form = .unsized → (type = nullType ∧ data = []) ∨ (type ≠ nullType ∧ ps = [])) ∧ Ends ps

/-- Atoms are not longer than what follows. -/
def Fits : List MovPart → Prop
  | [] => True
  | .enter form _ n :: ps => (form ≠ .unsized → n ≤ (movBytes ps).length) ∧ Fits ps
  | .leaf .. :: ps => Fits ps

/-- An atom at the top: one without inner atoms, or one with these parts. -/
inductive MovTop
  | box (form : MovForm) (type data : Bytes)
  | tree (form : MovForm) (type : Bytes) (inner : List MovPart)
  deriving DecidableEq, Repr

def MovTop.type : MovTop → Bytes
  | .box _ type _ => type
  | .tree _ type _ => type

def MovTop.form : MovTop → MovForm
  | .box form _ _ => form
  | .tree form _ _ => form

/-- Its contents. -/
def MovTop.body : MovTop → Bytes
  | .box _ _ data => data
  | .tree _ _ inner => movBytes inner

def MovTop.flat : MovTop → List MovPart
  | .box form type data => [.leaf form type data]
  | .tree form type inner => .enter form type (movBytes inner).length :: inner

/-- All parts of a file. -/
def flatten (tops : List MovTop) : List MovPart := tops.flatMap MovTop.flat

/-- The file. -/
def topBytes (tops : List MovTop) : Bytes := movBytes (flatten tops)

/-- Well-formed atoms at the top: inner atoms are inside the outer one and not "mdat", and only the
last atom can have no size. -/
structure MovOk (tops : List MovTop) : Prop where
  ok : ∀ p ∈ flatten tops, p.Ok
  ends : Ends (flatten tops)
  top : ∀ a t b, tops = a ++ t :: b → t.form = .unsized → (t.type = nullType ∧ t.body = []) ∨ (t.type ≠ nullType ∧ b = [])
  inner : ∀ form type inner, .tree form type inner ∈ tops → Fits inner ∧ ∀ p ∈ inner, p.type ≠ mdatType

/-- Types and contents of the atoms without inner ones. -/
def leaves (parts : List MovPart) : List (Bytes × Bytes) :=
  parts.filterMap fun
    | .enter .. => none
    | .leaf _ type data => some (type, data)

/-- A track: its number, and its chunks with offset and sizes of their samples. -/
structure MovLayout where
  id : Nat
  chunks : List (Nat × List Nat)
  deriving DecidableEq, Repr

/-- A table of numbers of `k` bytes. -/
def numbers (k : Nat) (l : List Nat) : Bytes := l.flatMap (be k)

/-- "tkhd" (of version 0): the number of the track comes behind version, flags and two times. -/
def TrackHeader (data : Bytes) (id : Nat) : Prop := id < 2 ^ 32 ∧ ∃ a b, a.length = 12 ∧ data = a ++ (be 4 id ++ b)

/-- "stco" and "co64": the offsets of the chunks. -/
def OffsetTable (leaf : Bytes × Bytes) (offsets : List Nat) : Prop :=
  ∃ k, (leaf.1 = stcoType ∧ k = 4 ∨ leaf.1 = co64Type ∧ k = 8) ∧ offsets.length < 2 ^ 32 ∧ (∀ o ∈ offsets, o < 256 ^ k) ∧
    ∃ v b, v.length = 4 ∧ leaf.2 = v ++ (be 4 offsets.length ++ (numbers k offsets ++ b))

/-- "stsc": a table of runs of chunks with the same number of samples: number of the first chunk
(they count from 1), samples in each chunk, and a description number.  The run of a chunk is the last
one that does not start behind it. -/
def RunTable (data : Bytes) (counts : List Nat) : Prop :=
  ∃ runs : List (Nat × Nat × Nat), runs.length < 2 ^ 32 ∧ (∀ r ∈ runs, r.1 < 2 ^ 32 ∧ r.2.1 < 2 ^ 32) ∧
    runs.Pairwise (fun a b => a.1 < b.1) ∧
    (∀ i c, counts[i]? = some c → ((runs.filter fun r => r.1 ≤ i + 1).getLast?.map fun r => r.2.1) = some c) ∧
    (∀ r ∈ runs, 1 ≤ r.1) ∧
    ∃ v b, v.length = 4 ∧
      data = v ++ (be 4 runs.length ++ ((runs.flatMap fun r => be 4 r.1 ++ (be 4 r.2.1 ++ be 4 r.2.2)) ++ b))

/-- "stsz": the sizes of the samples, one by one or, when all of them are equal, once. -/
def SizeTable (data : Bytes) (sizes : List Nat) : Prop :=
  sizes.length < 2 ^ 32 ∧ (∀ s ∈ sizes, s < 2 ^ 32) ∧ ∃ v b, v.length = 4 ∧
    (data = v ++ (be 4 0 ++ (be 4 sizes.length ++ (numbers 4 sizes ++ b))) ∨
     ∃ s, 0 < s ∧ s < 2 ^ 32 ∧ sizes = List.replicate sizes.length s ∧ data = v ++ (be 4 s ++ (be 4 sizes.length ++ b)))

/-- The atoms from one track header to the next: one table of each kind describes the track. -/
structure Describes (ls : List (Bytes × Bytes)) (t : MovLayout) : Prop where
  head : ∃ d rest, ls = (tkhdType, d) :: rest ∧ TrackHeader d t.id ∧ (∀ l ∈ rest, l.1 ≠ tkhdType) ∧
    (∃ o, rest.filter (fun l => l.1 == stcoType || l.1 == co64Type) = [o] ∧ OffsetTable o (t.chunks.map (·.1))) ∧
    (∃ o, rest.filter (fun l => l.1 == stscType) = [o] ∧ RunTable o.2 (t.chunks.map (·.2.length))) ∧
    (∃ o, rest.filter (fun l => l.1 == stszType || l.1 == stz2Type) = [o] ∧ o.1 = stszType ∧
      SizeTable o.2 (t.chunks.flatMap (·.2)))

/-- One track after the other. -/
def Sections : List (Bytes × Bytes) → List MovLayout → Prop
  | ls, [] => ls = []
  | ls, t :: ts => ∃ s rest, ls = s ++ rest ∧ Describes s t ∧ Sections rest ts

/-- The tables describe these tracks. -/
structure HasTracks (ls : List (Bytes × Bytes)) (tracks : List MovLayout) : Prop where
  split : ∃ lead rest, ls = lead ++ rest ∧
    (∀ l ∈ lead, l.1 ∉ [tkhdType, stcoType, co64Type, stscType, stszType, stz2Type]) ∧ Sections rest tracks
  distinct : tracks.Pairwise fun a b => a.id ≠ b.id

/-- The data of a track: that of its chunks, one after the other. -/
def layoutData (file : Bytes) (t : MovLayout) : Bytes := t.chunks.flatMap fun c => (file.drop c.1).take c.2.sum

/-- Offsets and sizes of all chunks that are not empty. -/
def pieces (tracks : List MovLayout) : List (Nat × Nat) :=
  (tracks.flatMap fun t => t.chunks.map fun c => (c.1, c.2.sum)).filter fun c => c.2 ≠ 0

/-- The pieces follow one another from `a` to `b`. -/
def Consecutive : Nat → List (Nat × Nat) → Nat → Prop
  | a, [], b => a = b
  | a, c :: l, b => c.1 = a ∧ Consecutive (a + c.2) l b

/-- An MP4 sample with these tracks. -/
structure PlainMp4 (before : List MovTop) (form : MovForm) (media : Bytes) (after : List MovTop) (tracks : List MovLayout) :
    Prop where
  ok : MovOk (before ++ .box form mdatType media :: after)
  own : ∀ t ∈ before ++ after, t.type ∉ ownTypes
  /-- Further "mdat" atoms are empty and come after. -/
  first : ∀ t ∈ before, t.type ≠ mdatType
  only : ∀ t ∈ after, t.type = mdatType → t.body = []
  tables : HasTracks (leaves (flatten (before ++ .box form mdatType media :: after))) tracks
  /-- The chunks, in some order, fill "mdat". -/
  tiles : ∃ l, l.Perm (pieces tracks) ∧
    Consecutive ((topBytes before).length + (movHeader form mdatType media.length).length) l
      ((topBytes before).length + (movHeader form mdatType media.length).length + media.length)
  /-- Chunks, also empty ones, are in the file. -/
  inside : ∀ t ∈ tracks, ∀ c ∈ t.chunks, c.1 + c.2.sum ≤ (topBytes (before ++ .box form mdatType media :: after)).length
  /-- The chunks of a track are stored in order. -/
  ordered : ∀ t ∈ tracks, t.chunks.Pairwise fun a b => a.1 ≤ b.1
  size : (topBytes (before ++ .box form mdatType media :: after)).length < 2 ^ 63

/-- The file. -/
def mp4Bytes (before : List MovTop) (form : MovForm) (media : Bytes) (after : List MovTop) : Bytes :=
  topBytes (before ++ .box form mdatType media :: after)

/-- A movie with these tracks.  Chunks have samples, do not overlap and are stored in order. -/
structure Mp4Movie (tops : List MovTop) (tracks : List MovLayout) : Prop where
  ok : MovOk tops
  tables : HasTracks (leaves (flatten tops)) tracks
  some : ∀ t ∈ tracks, t.chunks ≠ []
  samples : ∀ t ∈ tracks, ∀ c ∈ t.chunks, c.2 ≠ [] ∧ 0 < c.1 ∧ c.1 + c.2.sum ≤ (topBytes tops).length
  ordered : ∀ t ∈ tracks, t.chunks.Pairwise fun a b => a.1 + a.2.sum ≤ b.1
  size : (topBytes tops).length < 2 ^ 63

/-- A sample of the track starts at this place of its data. -/
def SampleStart (t : MovLayout) (p : Nat) : Prop := ∃ a s b, t.chunks.flatMap (·.2) = a ++ s :: b ∧ p = a.sum

/-- The data `d` was cut out of the data of this track, at the start of a sample, and the first 256
bytes of it are not at the start of an earlier one. -/
def CutMp4 (d file : Bytes) (t : MovLayout) : Prop :=
  ∃ p, SampleStart t p ∧ d <+: (layoutData file t).drop p ∧
    ∀ q, SampleStart t q → d.take 256 <+: (layoutData file t).drop q → p ≤ q

end Rescene.Spec
