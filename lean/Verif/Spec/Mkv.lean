import Verif.Spec.Ebml
/-
What a Matroska file is, independently of the reader: a sequence of EBML elements, some of which
have elements in them, and blocks with frames of tracks.  After the Matroska specification.
-/
namespace Rescene.Spec
open Rescene

-- the IDs of elements, as in the Matroska specification
def segmentId : Bytes := [0x18, 0x53, 0x80, 0x67]
def clusterId : Bytes := [0x1F, 0x43, 0xB6, 0x75]
def blockGroupId : Bytes := [0xA0]
def blockIds : List Bytes := [[0xA1], [0xA3]]
def tracksId : Bytes := [0x16, 0x54, 0xAE, 0x6B]
def trackEntryId : Bytes := [0xAE]
def trackNumberId : Bytes := [0xD7]
def codecId : Bytes := [0x86]
def encodingsId : Bytes := [0x6D, 0x80]
def encodingId : Bytes := [0x62, 0x40]
def compressionId : Bytes := [0x50, 0x34]
def compAlgoId : Bytes := [0x42, 0x54]
def compSettingsId : Bytes := [0x42, 0x55]
def attachmentsId : Bytes := [0x19, 0x41, 0xA4, 0x69]
def attachedFileId : Bytes := [0x61, 0xA7]
def fileNameId : Bytes := [0x46, 0x6E]
def fileDataId : Bytes := [0x46, 0x5C]
/-- The elements that are added to an SRS. -/
def ownIds : List Bytes := [[0x1F, 0x69, 0x75, 0x76], [0x6A, 0x75], [0x6B, 0x75]]

/-- Elements with a meaning; all others are plain. -/
def specialIds : List Bytes :=
  [segmentId, clusterId, blockGroupId, tracksId, trackEntryId, trackNumberId, codecId, encodingsId, encodingId,
    compressionId, compAlgoId, compSettingsId, attachmentsId, attachedFileId, fileNameId, fileDataId] ++ blockIds ++ ownIds

/-- The value of an EBML number. -/
def numberVal (b : Bytes) : Nat := ofBe b - 2 ^ (7 * b.length)

/-- The bytes of an EBML number, of whatever value. -/
def IsNumber (b : Bytes) : Prop := IsVint b.length (numberVal b) b

/-- A block: ID and size, the number of the track, the time code, the flags, the lacing header and
the frames. -/
structure MkvBlock where
  id : Bytes
  size : Bytes
  track : Nat
  number : Bytes
  time : Bytes
  flags : UInt8
  lace : Bytes
  frames : List Bytes
  deriving DecidableEq, Repr

/-- What comes before the frames. -/
def MkvBlock.head (b : MkvBlock) : Bytes := b.number ++ (b.time ++ (b.flags :: b.lace))

/-- The frames, one after the other. -/
def MkvBlock.data (b : MkvBlock) : Bytes := b.frames.flatten

/-- The kind of lacing in the flags. -/
def IsLace (flags : UInt8) (t : Lace) : Prop := laceCode t = flags.toNat / 2 % 4

structure MkvBlock.Ok (b : MkvBlock) : Prop where
  id : b.id ∈ blockIds
  track : IsVint b.number.length b.track b.number
  time : b.time.length = 2
  /-- The lacing header is the one for the frames; one single frame has no lacing or Xiph lacing. -/
  lace : ∃ t, IsLace b.flags t ∧ Laced t (b.frames.map List.length) b.lace ∧
    ((t = .fixed ∨ t = .ebml) → 2 ≤ b.frames.length)
  size : IsVint b.size.length (b.head.length + b.data.length) b.size

/-- The parts of a file in order: the start (ID and size) of an element with elements in it, which
follow; an element without any; a block. -/
inductive MkvPart
  | enter (id size : Bytes)
  | leaf (id size data : Bytes)
  | block (b : MkvBlock)
  deriving DecidableEq, Repr

/-- The bytes of a part without contents or frames. -/
def MkvPart.head : MkvPart → Bytes
  | .enter id size => id ++ size
  | .leaf id size _ => id ++ size
  | .block b => b.id ++ b.size ++ b.head

/-- Contents or frames. -/
def MkvPart.data : MkvPart → Bytes
  | .enter .. => []
  | .leaf _ _ data => data
  | .block b => b.data

def MkvPart.bytes (p : MkvPart) : Bytes := p.head ++ p.data

def MkvPart.id : MkvPart → Bytes
  | .enter id _ => id
  | .leaf id _ _ => id
  | .block b => b.id

def mkvBytes (parts : List MkvPart) : Bytes := parts.flatMap MkvPart.bytes

def MkvPart.Ok : MkvPart → Prop
  | .enter id size => IsNumber id ∧ id ∉ blockIds ∧ IsNumber size
  | .leaf id size data => IsNumber id ∧ id ∉ blockIds ∧ IsVint size.length data.length size
  | .block b => b.Ok

/-- What is at the top or in the segment: a part, or an element with all parts in it. -/
inductive MkvTop
  | part (p : MkvPart)
  | master (id size : Bytes) (inner : List MkvPart)
  deriving DecidableEq, Repr

/-- All parts. -/
def MkvTop.fine : MkvTop → List MkvPart
  | .part p => [p]
  | .master id size inner => .enter id size :: inner

/-- One part. -/
def MkvTop.whole : MkvTop → MkvPart
  | .part p => p
  | .master id size inner => .leaf id size (mkvBytes inner)

def mkvFine (tops : List MkvTop) : List MkvPart := tops.flatMap MkvTop.fine

/-- The file. -/
def mkvFile (tops : List MkvTop) : Bytes := mkvBytes (mkvFine tops)

/-- Elements are not longer than what follows, up to the end of the file; that of the segment does
not matter. -/
def MkvFits : List MkvPart → Prop
  | [] => True
  | .enter id size :: ps => (id ≠ segmentId → numberVal size ≤ (mkvBytes ps).length) ∧ MkvFits ps
  | _ :: ps => MkvFits ps

/-- An element without meaning here, such as the EBML header, a seek head, or cues. -/
def PlainLeaf (t : MkvTop) : Prop := ∃ id size data, t = .part (.leaf id size data) ∧ id ∉ specialIds

/-- An unsigned integer of 1 to 8 bytes whose first bits, as many as there are bytes, are not used:
one below 128 in one byte, say. -/
def PlainUInt (data : Bytes) : Prop := 1 ≤ data.length ∧ data.length ≤ 8 ∧ ofBe data < 2 ^ (7 * data.length)

/-- "Tracks": the description of the tracks. -/
def IsTracks (t : MkvTop) : Prop := ∃ size inner, t = .master tracksId size inner ∧
  ∀ p ∈ inner, (∃ id size, p = .enter id size ∧ id ∈ [trackEntryId, encodingsId, encodingId, compressionId]) ∨
    (∃ id size data, p = .leaf id size data ∧
      (id ∉ specialIds ∨ id ∈ [codecId, compSettingsId] ∨ (id ∈ [trackNumberId, compAlgoId] ∧ PlainUInt data)))

/-- A part of a cluster. -/
def InCluster (p : MkvPart) : Prop :=
  (∃ size, p = .enter blockGroupId size) ∨ (∃ id size data, p = .leaf id size data ∧ id ∉ specialIds) ∨ ∃ b, p = .block b

/-- Clusters with blocks, and attachments. -/
def IsMedia (t : MkvTop) : Prop :=
  (∃ size inner, t = .master clusterId size inner ∧ ∀ p ∈ inner, InCluster p) ∨
  (∃ size, t = .part (.enter clusterId size)) ∨
  (∃ id size, t = .part (.enter id size) ∧ id ∈ [attachmentsId, attachedFileId]) ∨
  (∃ id size data, t = .part (.leaf id size data) ∧ id ∈ [fileNameId, fileDataId]) ∨
  (∃ p, t = .part p ∧ InCluster p)

/-- The attached files: name, if there is one, and contents. -/
def attachments : Option Bytes → List MkvPart → List (Option Bytes × Bytes)
  | _, [] => []
  | name, .leaf id _ data :: ps =>
    if id = fileNameId then attachments (some data) ps
    else if id = fileDataId then (name, data) :: attachments name ps
    else attachments name ps
  | name, _ :: ps => attachments name ps

/-- The data of a track: the frames of its blocks, one after the other. -/
def mkvTrackData (parts : List MkvPart) (n : Nat) : Bytes :=
  parts.flatMap fun
    | .block b => if b.track = n then b.data else []
    | _ => []

/-- The tracks that have a block or a description. -/
def HasTrack (parts : List MkvPart) (n : Nat) : Prop :=
  (∃ b, .block b ∈ parts ∧ b.track = n) ∨ ∃ size data, .leaf trackNumberId size data ∈ parts ∧ ofBe data = n

/-- Header stripping: the first bytes of all frames of a track are stored in its description, as
the settings of compression algorithm 3.  Which track is described, if the algorithm is 3, and the
bytes so far. -/
structure StripState where
  cur : Nat := 0
  strip : Bool := false
  settings : Nat → Bytes := fun _ => []

def stripStep (s : StripState) : MkvPart → StripState
  | .leaf id _ data =>
    if id = trackNumberId then { s with cur := ofBe data }
    else if id = compAlgoId then { s with strip := ofBe data == 3 }
    else if id = compSettingsId ∧ s.strip = true then { s with settings := fun n => if n = s.cur then data else s.settings n }
    else s
  | _ => s

/-- The bytes that are missing at the start of the frames of a track. -/
def strippedHeader (parts : List MkvPart) (n : Nat) : Bytes := (parts.foldl stripStep {}).settings n

/-- What is kept of the data of a track: its first bytes, all of it or at least 256, and not more than
9984. -/
def IsSignature (sig data : Bytes) : Prop := sig <+: data ∧ (sig.length < 256 → sig = data) ∧ sig.length ≤ 9984

/-- The parts of an MKV sample: plain elements, the segment with plain elements and descriptions
of tracks, and then clusters and attachments. -/
structure PlainMkv (lead : List MkvTop) (seg : Bytes) (info media : List MkvTop) : Prop where
  ok : ∀ p ∈ mkvFine (lead ++ .part (.enter segmentId seg) :: (info ++ media)), p.Ok
  inner : ∀ id size inner, .master id size inner ∈ info ++ media → IsVint size.length (mkvBytes inner).length size
  fits : MkvFits (mkvFine (lead ++ .part (.enter segmentId seg) :: (info ++ media)))
  leads : ∀ t ∈ lead, PlainLeaf t
  infos : ∀ t ∈ info, PlainLeaf t ∨ IsTracks t
  medias : ∀ t ∈ media, IsMedia t
  first : ∀ t, media.head? = some t → t.whole.id ∈ [clusterId, attachmentsId]
  /-- Attached files have different names. -/
  names : ∃ l : List (Bytes × Bytes), attachments none (mkvFine media) = l.map (fun x => (some x.1, x.2)) ∧
    l.Pairwise fun a b => a.1 ≠ b.1

/-- "Attachments" with all that is in it. -/
def IsAttachments (t : MkvTop) : Prop := ∃ size inner, t = .master attachmentsId size inner ∧
  ∀ p ∈ inner, (∃ size, p = .enter attachedFileId size) ∨
    (∃ id size data, p = .leaf id size data ∧ (id ∉ specialIds ∨ id ∈ [fileNameId, fileDataId]))

/-- "Cluster" with all that is in it. -/
def IsCluster (t : MkvTop) : Prop := ∃ size inner, t = .master clusterId size inner ∧ ∀ p ∈ inner, InCluster p

/-- The parts of an MKV movie: plain elements, the segment with plain elements, descriptions of all
tracks that have a block, with the number of the track first, and attachments of different names;
and then clusters and plain elements. -/
structure PlainMovie (lead : List MkvTop) (seg : Bytes) (info media : List MkvTop) : Prop where
  ok : ∀ p ∈ mkvFine (lead ++ .part (.enter segmentId seg) :: (info ++ media)), p.Ok
  inner : ∀ id size inner, .master id size inner ∈ info ++ media → IsVint size.length (mkvBytes inner).length size
  leads : ∀ t ∈ lead, PlainLeaf t
  infos : ∀ t ∈ info, PlainLeaf t ∨ IsTracks t ∨ IsAttachments t
  medias : ∀ t ∈ media, PlainLeaf t ∨ IsCluster t
  described : ∀ b, .block b ∈ mkvFine media → ∃ size data, .leaf trackNumberId size data ∈ mkvFine info ∧ ofBe data = b.track
  number : ∀ a p b, mkvFine info = a ++ p :: b → p.id ∈ [compressionId, codecId, compAlgoId, compSettingsId] →
    ∃ size data, .leaf trackNumberId size data ∈ a
  names : ∃ l : List (Bytes × Bytes), attachments none (mkvFine info) = l.map (fun x => (some x.1, x.2)) ∧
    l.Pairwise fun a b => a.1 ≠ b.1

/-- The frames of a track. -/
def mkvTrackFrames (parts : List MkvPart) (n : Nat) : List Bytes :=
  parts.flatMap fun
    | .block b => if b.track = n then b.frames else []
    | _ => []

/-- Track `n` of a sample was cut from a movie: its frames are, with the bytes that are stripped in
either file, consecutive frames of that track of the movie.  When both files strip bytes, they are
the same.  `sig` is what is known of the track. -/
structure MkvCut (movie sample : List MkvPart) (n : Nat) (sig : Bytes) : Prop where
  some : ∃ f l, mkvTrackFrames sample n = f :: l ∧ f ≠ []
  frames : ∃ before run after, mkvTrackFrames movie n = before ++ (run ++ after) ∧
    run.map (strippedHeader movie n ++ ·) = (mkvTrackFrames sample n).map (strippedHeader sample n ++ ·) ∧
    /- the frames from an earlier one on do not look like the start of the sample -/
    ∀ a b, before = a ++ b → b ≠ [] →
      ¬ (b.map fun f => (strippedHeader movie n ++ f).drop (strippedHeader sample n).length).flatten.take sig.length <+: sig
  full : ∀ f ∈ mkvTrackFrames movie n, f ≠ []
  strip : strippedHeader movie n = strippedHeader sample n ∨ strippedHeader sample n = [] ∨
    (strippedHeader movie n = [] ∧ ∀ f ∈ mkvTrackFrames movie n, strippedHeader sample n <+: f)
  /-- The signature does not end inside the stripped bytes of a frame. -/
  clear : strippedHeader sample n = [] → ∀ k, ((mkvTrackFrames sample n).take k).flatten.length < sig.length →
    ((mkvTrackFrames sample n).take k).flatten.length + (strippedHeader movie n).length ≤ sig.length

end Rescene.Spec
