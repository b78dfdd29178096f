import Verif.Spec.Srr
import Verif.Model.Paths
/-
The volumes in an SRR.
-/
namespace Rescene.Spec

/-- The entry is a block of a RAR volume or padding: not an SRR header, a stored file, an OSO
hash or the beginning of a volume. -/
def Entry.inVolume (e : Entry) : Bool :=
  e.btype != 0x69 && e.btype != 0x6A && e.btype != 0x6B && e.btype != 0x71

/-- The volumes of an SRR: their names and their blocks. -/
def volumesOf : List Entry → List (Str × List Entry)
  | [] => []
  | e :: t =>
    match e.kind with
    | .rarFile name => (name, t.takeWhile Entry.inVolume) :: volumesOf t
    | _ => volumesOf t

/-- The header of an entry: the bytes the header size counts. -/
def Entry.header (e : Entry) : Bytes := e.raw.take (ofLe (slice e.raw 5 7))

/-- What is hashed of a volume: all bytes of its blocks, but only the header of the last one. -/
def hashed (es : List Entry) : Bytes :=
  entriesBytes es.dropLast ++ (es.getLast?.map Entry.header).getD []

/-- By what volumes are sorted: the lower case name without path. -/
def volumeKey (lower : Str → Str) (name : Str) : Str := basename (lower name)

/-- The entry has the fields of its type (it is not cut down to a basic header), and a recovery
record has the size it must have.  There is nothing behind the header of a RAR-file block. -/
def Entry.Reportable (e : Entry) : Prop :=
  (e.btype = 0x71 → (∃ n, e.kind = .rarFile n) ∧ e.header = e.raw) ∧ (e.btype = 0x74 → ∃ f, e.kind = .packed f) ∧
  (e.btype = 0x6B → ∃ s h n, e.kind = .oso s h n) ∧
  (e.btype = 0x7A → ∃ f rr, e.kind = .newSub f rr ∧ ∀ rs ds, rr = some (rs, ds) → f.packedSize = 512 * rs + 2 * ds)

end Rescene.Spec
