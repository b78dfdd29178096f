import Verif.Model.Bytes
/-
What an AVI file is, independently of the reader: a sequence of list headers ("RIFF" or "LIST", a
size, and the four bytes that name the list) and chunks (four characters, a size, the data, and a
padding byte behind data of odd length).  Nesting plays no role.
-/
namespace Rescene.Spec
open Rescene

inductive AviPart
  | list (riff : Bool) (size : Nat) (name : Bytes)
  | chunk (id : Bytes) (data : Bytes) (pad : UInt8)
  deriving DecidableEq, Repr

/-- "RIFF" and "LIST". -/
def riffId : Bytes := [0x52, 0x49, 0x46, 0x46]
def listId : Bytes := [0x4C, 0x49, 0x53, 0x54]

/-- A character of a chunk name: a space, a digit or a letter. -/
def NameByte (b : UInt8) : Prop :=
  b = 0x20 ∨ (0x30 ≤ b ∧ b ≤ 0x39) ∨ (0x41 ≤ b ∧ b ≤ 0x5A) ∨ (0x61 ≤ b ∧ b ≤ 0x7A)

instance (b : UInt8) : Decidable (NameByte b) := by unfold NameByte; infer_instance

def AviPart.Ok : AviPart → Prop
  | .list _ size name => size < 2 ^ 32 ∧ name.length = 4
  | .chunk id data _ => id.length = 4 ∧ (∀ b ∈ id, NameByte b) ∧ id ≠ riffId ∧ id ≠ listId ∧ data.length < 2 ^ 32

instance (p : AviPart) : Decidable p.Ok := by cases p <;> unfold AviPart.Ok <;> infer_instance

/-- The padding byte, if there is one. -/
def padding (data : Bytes) (pad : UInt8) : Bytes := if data.length % 2 = 1 then [pad] else []

def AviPart.bytes : AviPart → Bytes
  | .list riff size name => (if riff then riffId else listId) ++ (le 4 size ++ name)
  | .chunk id data pad => id ++ (le 4 data.length ++ (data ++ padding data pad))

def aviBytes (parts : List AviPart) : Bytes := parts.flatMap AviPart.bytes

/-- The number of the track, for chunks with stream data: their names start with two digits. -/
def AviPart.track : AviPart → Option Nat
  | .list .. => none
  | .chunk id _ _ =>
    match id with
    | a :: b :: _ =>
      if 0x30 ≤ a ∧ a ≤ 0x39 ∧ 0x30 ≤ b ∧ b ≤ 0x39 then some (10 * (a.toNat - 0x30) + (b.toNat - 0x30)) else none
    | _ => none

/-- The data of a track: that of its chunks, one after the other. -/
def trackBytes (parts : List AviPart) (n : Nat) : Bytes :=
  parts.flatMap fun p =>
    match p with
    | .chunk _ data _ => if p.track = some n then data else []
    | .list .. => []

/-- The list with the stream data. -/
def AviPart.isMovi : AviPart → Bool
  | .list riff _ name => !riff && name == [0x6D, 0x6F, 0x76, 0x69]
  | .chunk .. => false

/-- Chunks or lists named "SRSF" or "SRST", which SRS files use. -/
def AviPart.isOwn : AviPart → Bool
  | .list _ _ name => name == [0x53, 0x52, 0x53, 0x46] || name == [0x53, 0x52, 0x53, 0x54]
  | .chunk id _ _ => id == [0x53, 0x52, 0x53, 0x46] || id == [0x53, 0x52, 0x53, 0x54]

/-- A usual AVI file: it has a list "movi", no stream data in front of that, and nothing with the
names SRS files use. -/
structure PlainAvi (parts : List AviPart) : Prop where
  ok : ∀ p ∈ parts, p.Ok
  own : ∀ p ∈ parts, p.isOwn = false
  movi : ∃ a m b, parts = a ++ m :: b ∧ m.isMovi = true ∧ ∀ p ∈ a, p.track = none

/-- No list claims to be longer than the file. -/
def ListsFit (parts : List AviPart) : Prop :=
  ∀ a b size name, parts = a ++ .list false size name :: b → size ≤ 4 + (aviBytes b).length

/-- A movie, and for each of its chunks how many of its bytes come before the sample: all of them
for chunks before it, none for chunks after its start. -/
abbrev Movie := List (AviPart × Nat)

def Movie.parts (movie : Movie) : List AviPart := movie.map (·.1)

/-- The data of a track from the start of the sample on. -/
def fromPlace (movie : Movie) (n : Nat) : Bytes :=
  movie.flatMap fun p =>
    match p.1 with
    | .chunk _ data _ => if p.1.track = some n then data.drop p.2 else []
    | .list .. => []

/-- Where in the file that data starts, when the movie starts at `pos`. -/
def placeOf : Nat → Movie → Nat → Nat
  | _, [], _ => 0
  | pos, p :: ps, n => if fromPlace [p] n ≠ [] then pos + 8 + p.2 else placeOf (pos + p.1.bytes.length) ps n

/-- The sample was cut out of the movie. -/
structure CutFrom (sample : List AviPart) (movie : Movie) : Prop where
  ok : ∀ p ∈ movie, p.1.Ok
  /-- From some place on, each track goes on with the data it has in the sample, however it is cut
  into chunks. -/
  data : ∀ n, trackBytes sample n <+: fromPlace movie n
  /-- Behind the start of the sample nothing is left out. -/
  whole : ∀ a id data pad k b n, movie = a ++ (.chunk id data pad, k) :: b → (AviPart.chunk id data pad).track = some n →
    fromPlace a n ≠ [] → k = 0
  /-- The start of the sample is not found before: there is no byte in a chunk from which on the
  data agrees with the first 256 bytes of the track, as far as chunk and these go. -/
  fresh : ∀ a id data pad k b n, movie = a ++ (.chunk id data pad, k) :: b → (AviPart.chunk id data pad).track = some n →
    trackBytes sample n ≠ [] → ∀ i < k, i < data.length →
      ¬ ((data.drop i).take ((trackBytes sample n).take 256).length <+: (trackBytes sample n).take 256)

/-- Reading the movie from behind the parts `a` gives all that is needed. -/
structure ReadFrom (sample : List AviPart) (a b : Movie) : Prop where
  /-- The sample starts behind `a`. -/
  before : ∀ n, trackBytes sample n ≠ [] → fromPlace a n = []
  /-- All tracks occur there. -/
  seen : ∀ n, (∃ p ∈ sample ++ Movie.parts a, p.track = some n) → ∃ p ∈ b, p.1.track = some n

end Rescene.Spec
