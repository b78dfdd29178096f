import Verif.Model.Blocks
/-
`RarReader`: /repo/rescene/rar.py:1374-1680.
-/
namespace Rescene

/-- Read mode (rar.py:1381).  SFX (`enable_sfx=True`) is not modelled: no caller
in the modelled code passes it. -/
inductive Mode where
  | rar
  | srr
  deriving DecidableEq, Repr

/-- `RAR5_MARKER_BLOCK`, rar.py:78. -/
def rar5Marker : Bytes := [0x52, 0x61, 0x72, 0x21, 0x1A, 0x07, 0x01, 0x00]

/-- rar.py:1383-1454: the constructor, on a file opened at offset 0. -/
def openReader (data : Bytes) : Res Mode :=
  if data.length < 20 then .error .valueError
  else if data.take 8 = rar5Marker then .error .valueError
  else
    match data[2]? with
    | none => .error .typeError
    | some b =>
      if b.toNat = 0x72 then .ok .rar
      else if b.toNat = 0x69 then .ok .srr
      else .error .valueError

/-- State of the iteration: file position, `_rar_end_block_encountered`, and the
attribute `recovery_blocks_removed` (`none` while it is not set). -/
structure RState where
  pos : Nat
  endSeen : Bool
  recRemoved : Option Bool
  deriving DecidableEq, Repr

/-- rar.py:1565-1569: is this a recovery record? -/
def isRecoveryHdr (btype hsize : Nat) (buf : Bytes) : Res Bool :=
  if btype = 0x78 then .ok true
  else if btype = 0x7A ∧ hsize > 34 then do
    let n ← unpackAt 2 buf 26
    return n == 2 && slice buf 32 34 == [0x52, 0x52]
  else .ok false

/-- A padding block built by the reader itself from the bytes after the archive end
(rar.py:1497, 1524).  It has no `block_position` and `add_size` in Python; the model
records where it starts and the padding length. -/
def paddingBlock (pos : Nat) (padding : Bytes) : Res Block := do
  let raw ← mkPadding padding
  return ⟨pos, 0x6C6C, 0x6C, 0x8000, 11, padding.length, raw, .padding padding.length⟩

/-- rar.py:1572-1577: in SRR mode a RAR-file block sets `recovery_blocks_removed`,
and a recovery record that was kept in the SRR is skipped.  Returns the new attribute
and the number of bytes to skip. -/
def recStep (mode : Mode) (recRemoved : Option Bool) (btype flags add : Nat) (isRec : Bool) :
    Res (Option Bool × Nat) :=
  if mode = .srr then
    if btype = 0x71 then .ok (some (hasFlag flags 1), 0)
    else if isRec then
      match recRemoved with
      | none => .error .attrError
      | some true => .ok (recRemoved, 0)
      | some false => .ok (recRemoved, add)
    else .ok (recRemoved, 0)
  else .ok (recRemoved, 0)

/-- rar.py:1545-1616: the part of `_read` after the sanity checks, for a header of more
than 7 bytes.  Returns the block, the new file position and the attribute. -/
def readBody (mode : Mode) (data : Bytes) (pos : Nat) (hdr : Bytes) (btype flags hsize : Nat)
    (recRemoved : Option Bool) : Res (Block × Nat × Option Bool) := do
  let buf := hdr ++ readAt data (pos + 7) (hsize - 7)
  let add ← (if hasFlag flags 0x8000 = true ∨ btype = 0x74 ∨ btype = 0x7A then unpackAt 4 buf 7
    else .ok 0 : Res Nat)
  let isRec ← isRecoveryHdr btype hsize buf
  let (recRemoved, sk) ← recStep mode recRemoved btype flags add isRec
  let cur := pos + hsize + sk
  if btype = 0x6A then do
    let b ← mkBlock buf pos
    return (b, cur + add, recRemoved)
  else if btype ≠ 0x74 ∧ isRec = false ∧ add > 0 then do
    let extra := readAt data cur add
    let b ← mkBlock (buf ++ extra) pos
    return (b, cur + extra.length, recRemoved)
  else do
    let cur := if mode = .rar ∧ add > 0 then cur + add else cur
    let b ← mkBlock buf pos
    let cur :=
      if btype = 0x74 ∧ hasFlag b.flags 0x100 = true ∧ mode = .rar then pos + hsize + b.addSize
      else cur
    return (b, cur, recRemoved)

/-- rar.py:1462-1616 `_read`: `none` at the end of the file, otherwise the block and
the new state. -/
def readBlock (mode : Mode) (data : Bytes) (st : RState) : Res (Option (Block × RState)) := do
  if st.pos = data.length then return none
  else if st.pos + 7 > data.length then
    if st.endSeen = true ∧ mode = .rar then do
      let rest := data.drop st.pos
      let b ← paddingBlock st.pos rest
      return some (b, { st with pos := st.pos + rest.length })
    else throw .envError
  else do
    let hdr := readAt data st.pos 7
    let btype ← unpackAt 1 hdr 2
    let flags ← unpackAt 2 hdr 3
    let hsize ← unpackAt 2 hdr 5
    if st.endSeen = true ∧ mode = .rar then do
      let rest := data.drop (st.pos + 7)
      let b ← paddingBlock st.pos (hdr ++ rest)
      return some (b, { st with pos := st.pos + 7 + rest.length })
    else do
      let endSeen := st.endSeen || btype == 0x7B
      if hsize < 7 ∨ st.pos + hsize > data.length then throw .envError
      else if hsize = 7 then
        if btype = 0x69 then do
          let b ← mkBlock hdr st.pos
          return some (b, ⟨st.pos + 7, endSeen, st.recRemoved⟩)
        else do
          -- RarBlock(header_buffer, ...): rar.py:1542, 348-370
          let crc ← unpackAt 2 hdr 0
          let add ← (if hasFlag flags 0x8000 then unpackAt 4 hdr 7 else .ok 0 : Res Nat)
          return some (⟨st.pos, crc, btype, flags, hsize, add, hdr, .plain⟩,
            ⟨st.pos + 7, endSeen, st.recRemoved⟩)
      else do
        let (b, cur, rr) ← readBody mode data st.pos hdr btype flags hsize st.recRemoved
        return some (b, ⟨cur, endSeen, rr⟩)

/-- The state before the first block. -/
def RState.init : RState := ⟨0, false, none⟩

/-- rar.py:1618-1632, 1654-1670: iteration with a step budget.  Each element is a
block together with the file position after it was read (the position is kept for
specifications only; `readAll` drops it). -/
def readLoop (mode : Mode) (data : Bytes) : Nat → RState → Res (List (Block × Nat))
  | 0, _ => .error .fuel
  | fuel + 1, st => do
    match ← readBlock mode data st with
    | none => return []
    | some (b, st') => do
      let rest ← readLoop mode data fuel st'
      return (b, st'.pos) :: rest

/-- `RarReader(f).read_all()` with positions. -/
def readTrace (data : Bytes) : Res (List (Block × Nat)) := do
  let mode ← openReader data
  readLoop mode data (data.length + 1) RState.init

/-- `RarReader(f).read_all()`. -/
def readAll (data : Bytes) : Res (List Block) := do
  let t ← readTrace data
  return t.map (·.1)

end Rescene
