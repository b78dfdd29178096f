import Verif.Model.Blocks
/-
Reading a file posted on Usenet through its handle: `NNTPFile` of /repo/usenet/srr_usenet.py:304-985.
-/
namespace Rescene

/-- A file posted in parts.  `segs` are the decoded parts 1, 2, ...; `few` is `DEFAULT_LINES` (`none` for -1),
`little i k` how many bytes of part `i` its first `k` lines have, `lines i o` how many lines are asked for when
only the first `o` bytes of part `i` are needed (srr_usenet.py:809-834, from the headers; `none` when they
are of no use), `isRar` is `is_rar(self.name)`, and `reach` how far the MAGIC looks (7, or 19 after a change of
server).  Simplified: all parts are in the NZB, all articles are available and undamaged, and say the same
size of the file. -/
structure PostedFile where
  segs : List Bytes
  few : Option Nat
  little : Nat → Nat → Nat
  lines : Nat → Nat → Option Nat
  isRar : Bool
  reach : Nat

/-- The size in the yEnc headers. -/
def PostedFile.size (f : PostedFile) : Nat := f.segs.flatten.length

/-- `self.segments[i]`: part `i`, from 1 on. -/
def PostedFile.seg? (f : PostedFile) (i : Nat) : Option Bytes := if i = 0 then none else f.segs[i - 1]?

/-- The handle: the position, whether something was downloaded, the downloaded data of the parts, `_did_seek`,
`_end_magic_before`, and `magic_shift` with `magic_shift_offset` of the parts that have them. -/
structure NState where
  pos : Nat
  active : Bool
  data : Nat → Option Bytes
  didSeek : Bool
  endMagic : Bool
  shift : Nat → Option (Int × Int)

/-- srr_usenet.py:306-341: a new handle. -/
def NState.init : NState := ⟨0, false, fun _ => none, false, false, fun _ => none⟩

/-- srr_usenet.py:412-552 `grab_segment`: part `i`, or what its first lines have.  `nb_lines` of 1 is the whole
article. -/
def NState.grab (f : PostedFile) (st : NState) (i : Nat) (lines : Option Nat) : NState :=
  match f.seg? i with
  | none => st
  | some s =>
    let d := match lines with
      | some k => if k > 1 then s.take (f.little i k) else s
      | none => s
    { st with data := fun j => if j = i then some d else st.data j }

/-- srr_usenet.py:648-663 `_read_first_segment`, `_first_inactive_grab`. -/
def NState.first (f : PostedFile) (st : NState) (lines : Option Nat) : Res NState :=
  match f.seg? 1 with
  | none => .error .keyError
  | some _ => .ok { st.grab f 1 lines with active := true }

/-- `_segment_size_first`. -/
def PostedFile.firstSize (f : PostedFile) : Nat := ((f.seg? 1).getD []).length

/-- srr_usenet.py:622-646 `_which_segment`: the part and the offset in it.  Division by zero is `other`. -/
def PostedFile.which (f : PostedFile) (off : Nat) : Res (Nat × Nat) :=
  if off > f.size then .error .indexError
  else if f.firstSize = 0 then .error .other
  else
    let fix := if off % f.firstSize = 0 ∧ off / f.firstSize ≠ 0 then 0 else 1
    let part := off / f.firstSize + fix
    .ok (part, off - f.firstSize * (part - 1))

/-- Where a slice starts: negative indices count from the end. -/
def sliceAt (d : Bytes) (i : Int) : Nat := if i < 0 then d.length - (-i).toNat else i.toNat

/-- `d[i:j]`. -/
def partSlice (d : Bytes) (i j : Int) : Bytes := (d.drop (sliceAt d i)).take (sliceAt d j - sliceAt d i)

/-- srr_usenet.py:710-727 `get_basic_header`: seven bytes of the downloaded data of part `a`, with the next part when
they are not enough. -/
def NState.peek (f : PostedFile) (st : NState) (a : Nat) (off : Int) : NState × Bytes :=
  let shead := partSlice ((st.data a).getD []) off (off + 7)
  if shead.length = 7 then (st, shead)
  else match st.data (a + 1) with
    | some d => (st, shead ++ d.take (7 - shead.length))
    | none => match f.seg? (a + 1) with
      | some s => (st.grab f (a + 1) none, shead ++ s.take (7 - shead.length))
      | none => (st, shead)

/-- srr_usenet.py:728-732 `get_blocktype_basic_header`. -/
def blockTypeIn (shead : Bytes) : Nat := if shead.length = 7 then (shead.getD 2 0).toNat else 0xFF

/-- srr_usenet.py:733-738 `get_flags_basic_header`. -/
def blockFlagsIn (shead : Bytes) : Nat := if shead.length = 7 then (shead.getD 3 0).toNat + 256 * (shead.getD 4 0).toNat else 0

/-- srr_usenet.py:739-741 `is_rar_block`. -/
def isRarBlockType (t : Nat) : Bool := 0x72 ≤ t && t ≤ 0x7B

/-- srr_usenet.py:760-776: the loop of `do_magic` over the offsets to try. -/
def magicLoop (f : PostedFile) (a : Nat) (off : Int) : NState → List Int → NState × Int
  | st, [] => (st, off)
  | st, h :: t =>
    let (st', shead) := st.peek f a (off + h)
    if isRarBlockType (blockTypeIn shead) then
      if h = 0 then (st', off)
      else
        let old := match st'.shift a with | some (s, _) => s | none => 0
        ({ st' with shift := fun j => if j = a then some (old + h, off) else st'.shift j }, off + h)
    else magicLoop f a off st' t

/-- srr_usenet.py:747-776 `do_magic`. -/
def magic (f : PostedFile) (st : NState) (a : Nat) (off : Int) (amount : Nat) : NState × Int :=
  let amount := if amount = 7 then f.reach else amount
  magicLoop f a off st (0 :: (((List.range (amount - 1)).map fun (n : Nat) => -((n : Int) + 1)) ++ ((List.range (amount - 1)).map fun (n : Nat) => (n : Int) + 1)))

/-- srr_usenet.py:791-849: part `i` of the parts `a` to `e` is downloaded, if it is not there yet; returns
`spart_offset` too. -/
def fetchOne (f : PostedFile) (a e : Nat) (toEnd : Bool) (endOff : Nat) (st : NState) (off : Int) (i : Nat) : Res (NState × Int) :=
  match f.seg? i, st.data i with
  | none, none => .error .other
  | s, none =>
    let usual := if toEnd then none else if f.isRar && a == 1 then f.few else none
    let lines :=
      if f.few.isSome && i == e && a != 1 && a != f.segs.length then
        match f.lines i endOff with
        | some k => some k
        | none => usual
      else usual
    let st := st.grab f i lines
    let (st, off) := if i == a && f.isRar then magic f st a off 7 else (st, off)
    let st := if st.data i = some [] then st.grab f i none else st
    if s = some [] then .error .assertError else .ok (st, off)
  | s, some d =>
    if d = [] then if s = some [] then .error .assertError else .ok (st.grab f i none, off)
    else .ok (st, off)

/-- srr_usenet.py:791-849: the loop over the parts. -/
def fetchAll (f : PostedFile) (a e : Nat) (toEnd : Bool) (endOff : Nat) : NState → Int → List Nat → Res (NState × Int)
  | st, off, [] => .ok (st, off)
  | st, off, i :: t => do
    let (st, off) ← fetchOne f a e toEnd endOff st off i
    fetchAll f a e toEnd endOff st off t

/-- srr_usenet.py:862-887: the MAGIC on the last block of a RAR file, `left` bytes from the end. -/
def endBlockTry (f : PostedFile) (st : NState) (a : Nat) (off : Int) (left : Nat) : NState × Int :=
  let have_ := ((st.data a).getD []).length
  let (st, shead) := st.peek f a ((have_ : Int) - left)
  let flags := blockFlagsIn shead
  if flags &&& 0x3FF0 = 0 then
    let number := 7 + (if hasFlag flags 2 then 4 else 0) + (if hasFlag flags 4 then 7 else 0) + (if hasFlag flags 8 then 2 else 0)
    let gap := ((f.seg? a).getD []).length - ((st.data a).getD []).length
    let (st, off) := if number = left then magic f st a off (if gap > 7 then gap + 1 else 7) else (st, off)
    if number + 6 = left ∧ left = 26 then magic f st a off 7 else (st, off)
  else (st, off)

/-- srr_usenet.py:851-861: the MAGIC on the last block of a RAR file is tried once. -/
def endBlockMagic (f : PostedFile) (st : NState) (a : Nat) (off : Int) : NState × Int :=
  let left := f.size - st.pos
  if f.isRar && [20, 18, 7, 9, 11, 13, 14, 16, 26].contains left && !st.endMagic then endBlockTry f { st with endMagic := true } a off left
  else (st, off)

/-- rar.py: `SUPPORTED_FLAG_MASK` of the class of a block type. -/
def blockMask (t : Nat) : Option Nat :=
  if t = 0x69 then some 1 else if t = 0x6A then some 0x8000 else if t = 0x71 then some 0x8003 else if t = 0x6B then some 0
  else if t = 0x73 then some 0xC3FF else if t = 0x74 ∨ t = 0x7A then some 0xFFFF else if t = 0x7B then some 0xC00F
  else if t ∈ [0x6C, 0x72, 0x75, 0x76, 0x77, 0x78, 0x79] then some 0xC000 else none

/-- srr_usenet.py:911-924: the missing bytes of the RAR marker. -/
def markerMagic (f : PostedFile) (st : NState) : NState :=
  if f.isRar && st.pos == 0 then
    let marker : Bytes := [0x52, 0x61, 0x72, 0x21, 0x1A, 0x07, 0x00]
    let d := (st.data 1).getD []
    match [1, 2, 3, 4].find? fun k => (marker.drop k).isPrefixOf d with
    | some k => { st with data := fun j => if j = 1 then some (marker.take k ++ d) else st.data j }
    | none => st
  else st

/-- srr_usenet.py:926-948: the MAGIC on the header of a block. -/
def headerMagic (f : PostedFile) (st : NState) (a : Nat) (size off : Int) : NState × Int :=
  if f.isRar && size == 7 && st.didSeek then
    let (st, after) := magic f st a off 7
    let (st, shead) := st.peek f a after
    match blockMask (blockTypeIn shead) with
    | some m => if blockFlagsIn shead &&& (0xFFFF ^^^ m) = 0 then (st, after) else (st, off)
    | none => (st, off)
  else (st, off)

/-- srr_usenet.py:965-979: the data of the parts after the first one, and how far the position moves. -/
def moreParts (f : PostedFile) (st : NState) : Nat → Nat → Int → Res (Bytes × Int)
  | 0, _, size => if size ≤ 0 then .ok ([], 0) else .error .keyError
  | fuel + 1, next, size =>
    if size ≤ 0 then .ok ([], 0)
    else match f.seg? next, st.data next with
      | some s, some d =>
        if (s.length : Int) > size then .ok (d.take size.toNat, size)
        else do
          let (more, m) ← moreParts f st fuel (next + 1) (size - s.length)
          return (d ++ more, s.length + m)
      | _, _ => .error .keyError

/-- srr_usenet.py:889-908: more of the first and of the last part, when that is needed. -/
def grabRest (f : PostedFile) (st : NState) (a orig : Nat) (off size : Int) (e endOff : Nat) : NState :=
  let st := if a = 1 ∧ off + size > ((st.data 1).getD []).length then st.grab f 1 none else st
  if (((st.data e).getD []).length : Int) + ((orig : Int) - off) < endOff then st.grab f e none else st

/-- srr_usenet.py:950-984: the data. -/
def giveData (f : PostedFile) (st : NState) (a orig : Nat) (off size : Int) : Res (Bytes × NState) :=
  let st := { st with didSeek := false }
  let d := (st.data a).getD []
  let front := d.drop (sliceAt d off)
  if (front.length : Int) ≥ size then .ok (front.take size.toNat, { st with pos := st.pos + size.toNat })
  else do
    let (rest, moved) ← moreParts f st f.segs.length (a + 1) (size - (front.length + ((orig : Int) - off)))
    let pos := st.pos + front.length + moved.toNat
    if pos > f.size then throw .assertError
    else return (front ++ rest, { st with pos := pos })

/-- srr_usenet.py:778-784: how many bytes are read; `none` is -1, up to the end. -/
def NState.asked (f : PostedFile) (st : NState) : Option Nat → Nat
  | some n => n
  | none => f.size - st.pos

/-- srr_usenet.py:698-707: the shift that an earlier MAGIC found for part `a`. -/
def NState.extra (st : NState) (a : Nat) : Int :=
  match st.shift a with
  | some (s, o) => if (st.pos : Int) < o then 0 else s
  | none => 0

/-- srr_usenet.py:665-984 `read(size)`; `none` is -1. -/
def NState.read (f : PostedFile) (st : NState) (size : Option Nat) : Res (Bytes × NState) := do
  let st ← (if st.active then .ok st else st.first f (if size.isSome && f.isRar then f.few else none) : Res NState)
  if st.pos = f.size then return ([], st)
  else do
    let n := st.asked f size
    let (a, orig) ← f.which st.pos
    let (e, endOff) ← f.which (st.pos + n)
    let (st, off) ← fetchAll f a e size.isNone endOff st ((orig : Int) + st.extra a) ((List.range (e + 1 - a)).map fun k => a + k)
    let (st, off) := endBlockMagic f st a off
    let st := markerMagic f (grabRest f st a orig off n e endOff)
    let (st, off) := headerMagic f st a n off
    giveData f st a orig off n

/-- srr_usenet.py:587-620 `seek(offset, origin)`; `origin` is 0, 1 or 2. -/
def NState.seek (f : PostedFile) (st : NState) (offset : Int) (origin : Nat) : Res NState :=
  if st.active = false ∧ offset = 0 ∧ (origin = 0 ∨ (origin = 1 ∧ st.pos = 0)) then .ok { st with pos := 0 }
  else do
    let st ← (if st.active then .ok st else st.first f (if f.isRar then f.few else none) : Res NState)
    let dest : Int := if origin = 0 then offset else if origin = 1 then st.pos + offset else if origin = 2 then f.size + offset else 0
    if dest < 0 then throw .indexError
    else if dest > f.size then throw .indexError
    else return { st with pos := dest.toNat, didSeek := true }

end Rescene
