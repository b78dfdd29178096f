import Verif.Spec.Written
/-
The contents of an SRR file as a sequence of entries.
-/
namespace Rescene.Spec

/-- One block of an SRR: its type, what it says, its bytes, and the data stored after
it (for a stored file: the file). -/
structure Entry where
  btype : Nat
  kind : Kind
  raw : Bytes
  data : Bytes
  deriving DecidableEq

/-- The bytes of an SRR with these entries. -/
def entriesBytes (c : List Entry) : Bytes := (c.map fun e => e.raw ++ e.data).flatten

/-- The entry of a block that was found by the reader; `x.2` is where the next block
starts. -/
def entryOf (file : Bytes) (x : Block × Nat) : Entry :=
  ⟨x.1.btype, x.1.kind, x.1.raw, readAt file (x.1.pos + x.1.raw.length) (x.2 - (x.1.pos + x.1.raw.length))⟩

/-- `file` is a well-formed SRR with the entries `c`: the reader accepts it, no block is
cut off by the end of the file, and data that is not part of `block_bytes()` exists only
for stored files, with the size the block gives.  (The last point excludes SRRs of old
applications that kept recovery records with their data.) -/
def Contents (file : Bytes) (c : List Entry) : Prop :=
  openReader file = .ok .srr ∧ ∃ tr, readTrace file = .ok tr ∧ c = tr.map (entryOf file) ∧
    (∀ x ∈ tr, x.1.raw.length = x.1.hsize + keptLen x.1) ∧
    ∀ e ∈ c, if e.btype = 0x6A then ∃ name, e.kind = .stored e.data.length name else e.data = []

/-- The entry is a stored file with this name. -/
def Entry.isStored (e : Entry) (name : Str) : Prop :=
  e.btype = 0x6A ∧ ∃ size, e.kind = .stored size name

/-- The entry is a stored file with one of these names. -/
def Entry.isOneOf (e : Entry) (names : List Str) : Bool :=
  match e.kind with
  | .stored _ n => e.btype == 0x6A && names.contains n
  | _ => false

/-- The entry for a file to store: fails when the file cannot be read or the name cannot
be stored. -/
def newEntry (f : Str × Res Bytes) : Res Entry := do
  let d ← f.2
  let raw ← mkStored f.1 d.length
  return ⟨0x6A, .stored d.length f.1, raw, d⟩

/-- The entries for files to store, in order; the first failure counts. -/
def newEntries : List (Str × Res Bytes) → Res (List Entry)
  | [] => .ok []
  | f :: t => do
    let e ← newEntry f
    let r ← newEntries t
    return e :: r

/-- The entries before the first RAR volume block. -/
def beforeRar (c : List Entry) : List Entry := c.takeWhile (fun e => e.btype ≠ 0x71)

/-- The first RAR volume block and everything after it. -/
def fromRar (c : List Entry) : List Entry := c.dropWhile (fun e => e.btype ≠ 0x71)

/-- The application names of an SRR. -/
def appNames (c : List Entry) : List Str :=
  c.filterMap fun e => match e.kind with | .srrHeader a => if e.btype = 0x69 then some a else none | _ => none

/-- The first name that is not empty. -/
def firstName : List Str → Str
  | [] => []
  | [] :: t => firstName t
  | a :: _ => a

/-- The stored files. -/
def storedPart (c : List Entry) : List Entry := c.filter (fun e => e.btype == 0x6A)

/-- Everything that is neither the SRR header nor a stored file. -/
def otherPart (c : List Entry) : List Entry := c.filter (fun e => e.btype != 0x6A && e.btype != 0x69)

end Rescene.Spec
