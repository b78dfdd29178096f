import Verif.Model.Reader
/-
Where the blocks of a RAR or SRR file are: specification of the layout on disk.
-/
namespace Rescene.Spec

/-- The size field of a block: the 4 bytes after the basic header, present when the
LONG_BLOCK flag is set and always for file (0x74) and NEWSUB (0x7A) headers. -/
def sizeField (b : Block) : Nat :=
  if hasFlag b.flags 0x8000 = true ∨ b.btype = 0x74 ∨ b.btype = 0x7A then ofLe (slice b.raw 7 11) else 0

/-- A recovery record: an old style block 0x78 or a NEWSUB block named "RR". -/
def isRecovery (b : Block) : Bool :=
  b.btype == 0x78 ||
    (b.btype == 0x7A && decide (34 < b.hsize) && ofLe (slice b.raw 26 28) == 2 &&
      slice b.raw 32 34 == [0x52, 0x52])

/-- Number of data bytes that are on disk after the block but not part of
`block_bytes()`: the stored file; in a RAR file the packed data and the recovery data;
in an SRR only recovery data of volumes whose recovery records were not removed. -/
def skippedLen (mode : Mode) (recRemoved : Option Bool) (b : Block) : Nat :=
  if b.hsize = 7 then 0
  else if b.btype = 0x6A then sizeField b
  else if b.btype = 0x74 then (if mode = .rar then b.addSize else 0)
  else if isRecovery b = true then
    (if mode = .rar ∨ recRemoved = some false then sizeField b else 0)
  else 0

/-- The block is found at its position in `data`: `block_bytes()` are the bytes of the
file at that position. -/
def FoundAt (data : Bytes) (b : Block) : Prop :=
  7 ≤ b.hsize ∧ b.hsize ≤ b.raw.length ∧ b.pos + b.raw.length ≤ data.length ∧
    b.raw = readAt data b.pos b.raw.length

/-- The block the reader makes itself for bytes after the archive end block: all
remaining bytes of the file. -/
def IsTail (data : Bytes) (b : Block) : Prop :=
  b.kind = .padding (data.length - b.pos) ∧ b.pos < data.length ∧
    b.raw.drop 11 = data.drop b.pos ∧ b.raw.length = 11 + (data.length - b.pos)

/-- Consecutive blocks from offset `a` to offset `z` of `data`.  The second component of
an element is where the block ends (data that is skipped included).  `rr` is the state
"recovery records removed" (set by the RAR-file blocks of an SRR). -/
def Tiles (mode : Mode) (data : Bytes) : List (Block × Nat) → Option Bool → Nat → Nat → Prop
  | [], _, a, z => a = z
  | (b, e) :: t, rr, a, z =>
    b.pos = a ∧ a < e ∧ e ≤ z ∧
    ((FoundAt data b ∧ e = a + b.raw.length + skippedLen mode rr b) ∨
      (mode = .rar ∧ IsTail data b ∧ e = data.length ∧ t = [])) ∧
    Tiles mode data t (if mode = .srr ∧ b.hsize ≠ 7 ∧ b.btype = 0x71 then some (hasFlag b.flags 1) else rr) e z

end Rescene.Spec
