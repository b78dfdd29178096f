import Verif.Spec.Written
import Verif.Spec.Recovery
import Verif.Model.Reconstruct
/-
Volumes that can be rebuilt, and what is needed to rebuild them.
-/
namespace Rescene.Spec

/-- The number of parity sectors and of protected sectors of a recovery record. -/
def sectorsOf (b : Block) : Option (Nat × Nat) :=
  match b.kind with
  | .newSub _ rr => rr
  | .oldRec _ _ rs ds => some (rs, ds)
  | _ => none

/-- The block of a RAR volume that ends at offset `e` can be rebuilt from its header:
the bytes behind the archive end, or a block
* of a type RAR uses (or the cleared archive end block of 20 bytes),
* whose data is not cut off,
* that has all fields of its type when it is a file, subblock or recovery record header,
* and, when it is a recovery record, is followed by the parity data of the volume before it. -/
def Restorable (data : Bytes) (b : Block) (e : Nat) : Prop :=
  IsTail data b ∨
    ((0x72 ≤ b.btype ∧ b.btype ≤ 0x7B ∨ b.btype = 0 ∧ b.hsize = 20) ∧
    b.raw.length = b.hsize + keptLen b ∧
    (b.btype = 0x74 ∨ b.btype = 0x78 ∨ b.btype = 0x7A → b.hsize ≠ 7) ∧
    (isRecovery b = true ↔ (sectorsOf b).isSome = true) ∧
    ∀ rs ds, sectorsOf b = some (rs, ds) →
      if rs = 0 then e = b.pos + b.raw.length
      else sectorCount (data.take b.pos) ≤ ds ∧
        slice data (b.pos + b.raw.length) e = recoveryData (data.take b.pos) rs ds)

/-- The sizes of subblocks and recovery records are given the usual way: in the four bytes after
the basic header (with the flag that says so), and no parity sectors means no protected ones. -/
def UsualSize (b : Block) : Prop :=
  (b.btype = 0x78 ∨ b.btype = 0x7A → b.addSize = sizeField b) ∧ ∀ ds, sectorsOf b = some (0, ds) → ds = 0

/-- A part of an archived file in a volume: the flags and fields of its header, and the packed
data. -/
structure FilePart where
  flags : Nat
  f : FileFields
  data : Bytes
  deriving DecidableEq

/-- The parts in a volume. -/
def fileParts (data : Bytes) (tr : List (Block × Nat)) : List FilePart :=
  tr.flatMap fun x =>
    match x.1.kind with
    | .packed f => [⟨x.1.flags, f, slice data (x.1.pos + x.1.raw.length) x.2⟩]
    | _ => []

/-- A volume that can be rebuilt: a RAR file the reader reads to its end, every block of which
can be rebuilt. -/
def GoodVolume (data : Bytes) : Prop :=
  openReader data = .ok .rar ∧ ∃ tr, readTrace data = .ok tr ∧ ∀ x ∈ tr, Restorable data x.1 x.2

/-- The parts of files in a volume. -/
def volumeParts (data : Bytes) : List FilePart :=
  match readTrace data with
  | .ok tr => fileParts data tr
  | .error _ => []

/-- Parts that are cut from files one after the other: `holds p content` says what the file is
that begins with part `p`.  `cur` is the name of the file whose parts come at the moment, and
what is left of it. -/
inductive Packs (holds : FilePart → Bytes → Prop) : Option (Str × Bytes) → List FilePart → Prop
  | nil {cur} : Packs holds cur []
  | continues {p ps rest} :
      Packs holds (some (p.f.name, rest)) ps → Packs holds (some (p.f.name, p.data ++ rest)) (p :: ps)
  | starts {cur p ps rest} :
      (∀ n r, cur = some (n, r) → n ≠ p.f.name) → holds p (p.data ++ rest) →
      Packs holds (some (p.f.name, rest)) ps → Packs holds cur (p :: ps)

/-- The data to pack for the file with part `p` is `content`: zeros for a directory; otherwise
there is a file in the input folder under the name in the archive (or its hint) that is not
written to, of the right size, that is `content` (stored), or is packed to `content`
(compressed). -/
def SourceIs (a : RecArgs) (fs : FS) (written : List Path) (p : FilePart) (content : Bytes) : Prop :=
  if p.flags &&& 0xE0 = 0xE0 then content = List.replicate p.f.unpackedSize 0
  else
    ∃ name d, (a.hints.lookup p.f.name = some name ∨ a.hints.lookup p.f.name = none ∧ osFileNameRar p.f.name = .ok name) ∧
      a.abspath (posixJoin2 a.inFolder name) ∉ written ∧
      fs (a.abspath (posixJoin2 a.inFolder name)) = some d ∧
      (d.length = p.f.unpackedSize ∨ p.f.unpackedSize = 0xFFFFFFFF ∨ p.f.unpackedSize = 0xFFFFFFFFFFFFFFFF) ∧
      if p.f.method = 0x30 then content = d else a.compress p.f d = .ok content

end Rescene.Spec
