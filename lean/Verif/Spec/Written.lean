import Verif.Spec.Layout
/-
Blocks that stand on their own: what has to hold of a block so that it is read back
from the bytes `block_bytes()`.
-/
namespace Rescene.Spec

/-- Number of data bytes after the header that are part of `block_bytes()`: the size
field, except for stored files, packed files and recovery records. -/
def keptLen (b : Block) : Nat :=
  if b.hsize = 7 ∨ b.btype = 0x6A ∨ b.btype = 0x74 ∨ isRecovery b = true then 0 else sizeField b

/-- The block has a size field. -/
def Sized (b : Block) : Prop :=
  hasFlag b.flags 0x8000 = true ∨ (b.hsize ≠ 7 ∧ (b.btype = 0x74 ∨ b.btype = 0x7A))

/-- The block a 7 byte header stands for. -/
def plainBlock (raw : Bytes) (pos : Nat) : Block :=
  ⟨pos, ofLe (slice raw 0 2), ofLe (slice raw 2 3), ofLe (slice raw 3 5), ofLe (slice raw 5 7), 0, raw, .plain⟩

/-- A complete block: its bytes are one header of `hsize` bytes plus the data that
belongs to it, and all fields are those parsed from these bytes. -/
structure Complete (b : Block) : Prop where
  size : 7 ≤ b.hsize
  len : b.raw.length = b.hsize + keptLen b
  sized : Sized b → 11 ≤ b.hsize
  parsed : if b.hsize = 7 ∧ b.btype ≠ 0x69 then b = plainBlock b.raw b.pos else mkBlock b.raw b.pos = .ok b

/-- The same block at another offset. -/
def at_ (b : Block) (pos : Nat) : Block := { b with pos := pos }

end Rescene.Spec
