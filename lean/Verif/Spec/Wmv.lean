import Verif.Model.Bytes
/-
What a WMV (ASF) file is, independently of the reader: a sequence of objects, each with a GUID, a size
in eight bytes that includes both, and contents.  The header object has six bytes and objects inside,
the data object has packets of one size.
-/
namespace Rescene.Spec
open Rescene

/-! ### Packets -/

/-- The length of a field, as two bits say. -/
def fieldSize : Nat → Nat
  | 0 => 0
  | 1 => 1
  | 2 => 2
  | _ => 4

/-- A run of data of one stream and the bytes in front of it. -/
structure WmvPiece where
  stream : Nat
  head : Bytes
  data : Bytes
  deriving DecidableEq, Repr

/-- What a payload holds: data, or small runs of data with their lengths. -/
inductive WmvContent
  | plain (data : Bytes)
  | runs (first : Bytes) (more : List Bytes)
  deriving DecidableEq, Repr

/-- A payload: a byte with the stream number, three fields, the replicated data (or the time step of
small runs), and the length of the contents. -/
structure WmvPayload where
  first : UInt8
  number : Bytes
  offset : Bytes
  repl : Bytes
  extra : Bytes
  size : Bytes
  content : WmvContent
  deriving DecidableEq, Repr

def WmvPayload.stream (p : WmvPayload) : Nat := p.first.toNat % 128

def WmvPayload.head (p : WmvPayload) : Bytes := p.first :: (p.number ++ (p.offset ++ (p.repl ++ (p.extra ++ p.size))))

/-- A run of data with its length in front of it. -/
def runPiece (stream : Nat) (d : Bytes) : WmvPiece := ⟨stream, [UInt8.ofNat d.length], d⟩

def WmvPayload.pieces (p : WmvPayload) : List WmvPiece :=
  match p.content with
  | .plain d => [⟨p.stream, p.head, d⟩]
  | .runs d ds => ⟨p.stream, p.head ++ [UInt8.ofNat d.length], d⟩ :: ds.map (runPiece p.stream)

/-- Length of the contents. -/
def WmvContent.length : WmvContent → Nat
  | .plain d => d.length
  | .runs d ds => ((d :: ds).map fun x => 1 + x.length).sum

/-- `multi`: the packet says how long its payloads are; `prop` says how long the fields are. -/
structure WmvPayload.Ok (multi : Bool) (prop : Nat) (p : WmvPayload) : Prop where
  number : p.number.length = fieldSize (prop / 16 % 4)
  offset : p.offset.length = fieldSize (prop / 4 % 4)
  repl : p.repl.length = fieldSize (prop % 4)
  /-- No replicated data or at least eight bytes of it; a length of one stands for small runs. -/
  extra : match p.content with
    | .plain _ => ofLe p.repl = p.extra.length ∧ (p.extra = [] ∨ 8 ≤ p.extra.length)
    | .runs d ds => ofLe p.repl = 1 ∧ p.extra.length = 1 ∧ ∀ x ∈ d :: ds, x.length < 256
  size : p.size = if multi then le 2 p.content.length else []
  short : multi = true → p.content.length < 2 ^ 16

/-- A packet: 0x82, two bytes of error correction data, flags, three fields, six bytes with times, the
number of payloads if there may be several, the payloads and padding. -/
structure WmvPacket where
  ec : Bytes
  flags : UInt8
  prop : UInt8
  length : Bytes
  sequence : Bytes
  padSize : Bytes
  time : Bytes
  payloads : List WmvPayload
  padding : Bytes
  deriving DecidableEq, Repr

def WmvPacket.multi (p : WmvPacket) : Bool := p.flags.toNat % 2 == 1

def WmvPacket.head (p : WmvPacket) : Bytes :=
  0x82 :: (p.ec ++ (p.flags :: p.prop :: (p.length ++ (p.sequence ++ (p.padSize ++ (p.time ++
    if p.multi then [UInt8.ofNat (0x80 + p.payloads.length)] else []))))))

def WmvPacket.pieces (p : WmvPacket) : List WmvPiece := p.payloads.flatMap WmvPayload.pieces

def WmvPacket.bytes (p : WmvPacket) : Bytes :=
  p.head ++ (p.pieces.flatMap (fun x => x.head ++ x.data) ++ p.padding)

/-- The packet without its data. -/
def WmvPacket.stripped (p : WmvPacket) : Bytes := p.head ++ p.pieces.flatMap WmvPiece.head

structure WmvPacket.Ok (psize : Nat) (p : WmvPacket) : Prop where
  ec : p.ec.length = 2
  length : p.length.length = fieldSize (p.flags.toNat / 32 % 4)
  sequence : p.sequence.length = fieldSize (p.flags.toNat / 2 % 4)
  padSize : p.padSize.length = fieldSize (p.flags.toNat / 8 % 4)
  time : p.time.length = 6
  count : if p.multi then 1 ≤ p.payloads.length ∧ p.payloads.length < 64 else p.payloads.length = 1
  payloads : ∀ x ∈ p.payloads, x.Ok p.multi p.prop.toNat
  total : p.bytes.length = psize
  /-- Padding fills the packet: what its field says, and what the packet is longer than it says. -/
  padding : if p.length = [] then p.padding.length = ofLe p.padSize
    else ofLe p.length ≤ psize ∧ p.padding.length = ofLe p.padSize + (psize - ofLe p.length)

/-! ### Objects -/

def headerGuid : Bytes := [0x30, 0x26, 0xB2, 0x75, 0x8E, 0x66, 0xCF, 0x11, 0xA6, 0xD9, 0x00, 0xAA, 0x00, 0x62, 0xCE, 0x6C]
def dataGuid : Bytes := [0x36, 0x26, 0xB2, 0x75, 0x8E, 0x66, 0xCF, 0x11, 0xA6, 0xD9, 0x00, 0xAA, 0x00, 0x62, 0xCE, 0x6C]
/-- "SRSF" and "SRST" four times, and "PADDINGBYTESDATA": what SRS files use. -/
def srsGuids : List Bytes :=
  [[0x53, 0x52, 0x53, 0x46, 0x53, 0x52, 0x53, 0x46, 0x53, 0x52, 0x53, 0x46, 0x53, 0x52, 0x53, 0x46],
   [0x53, 0x52, 0x53, 0x54, 0x53, 0x52, 0x53, 0x54, 0x53, 0x52, 0x53, 0x54, 0x53, 0x52, 0x53, 0x54],
   [0x50, 0x41, 0x44, 0x44, 0x49, 0x4E, 0x47, 0x42, 0x59, 0x54, 0x45, 0x53, 0x44, 0x41, 0x54, 0x41]]

structure WmvObject where
  guid : Bytes
  body : Bytes
  deriving DecidableEq, Repr

def WmvObject.bytes (o : WmvObject) : Bytes := o.guid ++ (le 8 (24 + o.body.length) ++ o.body)

/-- An object that is neither a header nor data. -/
def WmvObject.Ok (o : WmvObject) : Prop :=
  o.guid.length = 16 ∧ o.guid ≠ headerGuid ∧ o.guid ≠ dataGuid ∧ 24 + o.body.length < 2 ^ 63

instance instDecidableWmvObjectOk (o : WmvObject) : Decidable o.Ok := by unfold WmvObject.Ok; infer_instance

inductive WmvTop
  | other (o : WmvObject)
  | header (reserved : Bytes) (inner : List WmvObject)
  deriving DecidableEq, Repr

/-- The contents of a header object. -/
def headerBody (reserved : Bytes) (inner : List WmvObject) : Bytes := reserved ++ inner.flatMap WmvObject.bytes

def WmvTop.bytes : WmvTop → Bytes
  | .other o => o.bytes
  | .header reserved inner => headerGuid ++ (le 8 (24 + (headerBody reserved inner).length) ++ headerBody reserved inner)

/-- What SRS files use does not occur. -/
def WmvTop.Ok : WmvTop → Prop
  | .other o => o.Ok ∧ o.guid ∉ srsGuids
  | .header reserved inner => reserved.length = 6 ∧ (∀ o ∈ inner, o.Ok) ∧ 24 + (headerBody reserved inner).length < 2 ^ 63

instance instDecidableWmvTopOk (t : WmvTop) : Decidable t.Ok := by cases t <;> unfold WmvTop.Ok <;> infer_instance

def WmvTop.objects : WmvTop → List WmvObject
  | .other o => [o]
  | .header _ inner => inner

def streamGuid : Bytes := [0x91, 0x07, 0xDC, 0xB7, 0xB7, 0xA9, 0xCF, 0x11, 0x8E, 0xE6, 0x00, 0xC0, 0x0C, 0x20, 0x53, 0x65]
def fileGuid : Bytes := [0xA1, 0xDC, 0xAB, 0x8C, 0x47, 0xA9, 0xCF, 0x11, 0x8E, 0xE4, 0x00, 0xC0, 0x0C, 0x20, 0x53, 0x65]

/-- The streams that stream objects tell about.  The reader takes four bits of the number. -/
def declared (l : List WmvObject) : List Nat :=
  (l.filter fun o => o.guid = streamGuid).map fun o => ofLe (slice o.body 48 50) % 16

/-- A file: objects, the data object, and more objects. -/
structure WmvFile where
  before : List WmvTop
  /-- File id of the data object. -/
  id : Bytes
  reserved : Bytes
  psize : Nat
  packets : List WmvPacket
  after : List WmvTop
  deriving DecidableEq, Repr

def asfBytes (l : List WmvTop) : Bytes := l.flatMap WmvTop.bytes

/-- The data object up to the packets. -/
def WmvFile.dataHead (w : WmvFile) : Bytes :=
  dataGuid ++ (le 8 (50 + w.packets.length * w.psize) ++ (w.id ++ (le 8 w.packets.length ++ w.reserved)))

def WmvFile.bytes (w : WmvFile) : Bytes :=
  asfBytes w.before ++ (w.dataHead ++ (w.packets.flatMap WmvPacket.bytes ++ asfBytes w.after))

structure WmvFile.Ok (w : WmvFile) : Prop where
  before : ∀ t ∈ w.before, t.Ok
  after : ∀ t ∈ w.after, t.Ok
  id : w.id.length = 16
  reserved : w.reserved.length = 2
  some : w.packets ≠ []
  packets : ∀ p ∈ w.packets, p.Ok w.psize
  size : w.bytes.length < 2 ^ 63

def WmvFile.pieces (w : WmvFile) : List WmvPiece := w.packets.flatMap WmvPacket.pieces

def WmvFile.objects (w : WmvFile) : List WmvObject := (w.before ++ w.after).flatMap WmvTop.objects

/-- The streams of the file. -/
def WmvFile.HasStream (w : WmvFile) (n : Nat) : Prop := n ∈ declared w.objects ∨ ∃ p ∈ w.pieces, p.stream = n

/-- The data of a stream. -/
def streamData (ps : List WmvPiece) (n : Nat) : Bytes := ps.flatMap fun p => if p.stream = n then p.data else []

/-- No two or more packets at the end are, without their data, as long as one packet with its data. -/
def WmvFile.Lucky (w : WmvFile) : Prop :=
  ∀ a b, w.packets = a ++ b → 2 ≤ b.length → (b.flatMap WmvPacket.stripped).length ≠ w.psize

/-- Stream and file objects have the fields that are read. -/
def LongOk (o : WmvObject) : Prop := (o.guid = streamGuid → 50 ≤ o.body.length) ∧ (o.guid = fileGuid → 24 ≤ o.body.length)

instance instDecidableLongOk (o : WmvObject) : Decidable (LongOk o) := by unfold LongOk; infer_instance

/-- Each stream has one stream object at most, and none that comes after its data. -/
structure StreamsOk (w : WmvFile) : Prop where
  long : ∀ o ∈ w.objects, LongOk o
  once : (declared w.objects).Nodup
  first : ∀ n ∈ declared (w.after.flatMap WmvTop.objects), ∀ p ∈ w.pieces, p.stream ≠ n

end Rescene.Spec
