import Verif.Model.Str
/-
RAR and SRR blocks: /repo/rescene/rar.py.
-/
namespace Rescene

/-- `flags & mask` as a truth value. -/
def hasFlag (flags mask : Nat) : Bool := (flags &&& mask) != 0

/-- rar.py:84-91 `_parse_dos_time`: (year, month, day, hour, minute, second). -/
def parseDosTime (stamp : Nat) : Nat × Nat × Nat × Nat × Nat × Nat :=
  let sec := stamp &&& 0x1F
  let stamp := stamp >>> 5
  let mnt := stamp &&& 0x3F
  let stamp := stamp >>> 6
  let hr := stamp &&& 0x1F
  let stamp := stamp >>> 5
  let day := stamp &&& 0x1F
  let stamp := stamp >>> 5
  let mon := stamp &&& 0x0F
  let stamp := stamp >>> 4
  let yr := (stamp &&& 0x7F) + 1980
  (yr, mon, day, hr, mnt, sec * 2)

/-- An extended time stamp: the DOS time tuple plus `rem` units of 100 ns plus one
second when `plus` is set.  Python stores the seconds as a float
`dostime[5] + rem / 10000000 (+ 1)`; the model keeps the exact parts. -/
structure XTime where
  dos : Nat × Nat × Nat × Nat × Nat × Nat
  rem : Nat
  plus : Bool
  deriving DecidableEq, Repr

/-- rar.py:118-121: the loop reading `cnt` bytes of sub-second precision. -/
def xtimeRem (data : Bytes) : Nat → Nat → Nat → Res (Nat × Nat)
  | 0, pos, rem => .ok (rem, pos)
  | cnt + 1, pos, rem => do
    let b ← unpackAt 1 data pos
    xtimeRem data cnt (pos + 1) ((b <<< 16) ||| (rem >>> 8))

/-- rar.py:109-126 `_parse_xtime`.  `none` is the tuple that was never set
(`dostime=None` and the flag bit clear). -/
def parseXTime (flag : Nat) (data : Bytes) (pos : Nat)
    (dostime : Option (Nat × Nat × Nat × Nat × Nat × Nat)) : Res (Option XTime × Nat) :=
  if hasFlag flag 8 then do
    let (dt, pos) ← (match dostime with
      | some d => (.ok (d, pos) : Res _)
      | none => do
        let t ← unpackAt 4 data pos
        return (parseDosTime t, pos + 4))
    let (rem, pos) ← xtimeRem data (flag &&& 3) pos 0
    return (some ⟨dt, rem, hasFlag flag 4⟩, pos)
  else .ok (dostime.map fun d => ⟨d, 0, false⟩, pos)

/-- The four extended times of a file header. -/
structure ExtTimes where
  mtime : Option XTime
  ctime : Option XTime
  atime : Option XTime
  arctime : Option XTime
  deriving DecidableEq, Repr

/-- rar.py:93-107 `_parse_ext_time`. -/
def parseExtTime (data : Bytes) (pos : Nat) (fdt : Nat × Nat × Nat × Nat × Nat × Nat) :
    Res (ExtTimes × Nat) := do
  let (flags, pos) ← (if pos + 2 ≤ data.length then do
      let f ← unpackAt 2 data pos
      return (f, pos + 2)
    else .ok (0, pos) : Res (Nat × Nat))
  let (m, pos) ← parseXTime (flags >>> 12) data pos (some fdt)
  let (c, pos) ← parseXTime (flags >>> 8) data pos none
  let (a, pos) ← parseXTime (flags >>> 4) data pos none
  let (r, pos) ← parseXTime flags data pos none
  return (⟨m, c, a, r⟩, pos)

/-- rar.py:153-156 `enc_byte`: the next byte of the encoded data or IndexError. -/
def encByte : Bytes → Res (Nat × Bytes)
  | [] => .error .indexError
  | b :: t => .ok (b.toNat, t)

/-- rar.py:158-164, 186-191: `n` times `put(f(std_byte()), hi)` starting at name
position `pos`; IndexError past the end of the standard name.  A unit is
`lo + 256 * hi`. -/
def stdRun (std : Bytes) (f : Nat → Nat) (hi : Nat) : Nat → Nat → Res (List Nat)
  | 0, _ => .ok []
  | n + 1, pos =>
    match std[pos]? with
    | none => .error .indexError
    | some s => do
      let r ← stdRun std f hi n (pos + 1)
      return (f s.toNat + 256 * hi) :: r

/-- rar.py:170-191: the loop of `UnicodeFilename.decode`.  `enc` is the unread rest
of the encoded data, `pos` the number of units put so far. -/
def ufLoop (std : Bytes) (hi : Nat) : Nat → Bytes → Nat → Nat → Nat → Res (List Nat)
  | _, [], _, _, _ => .ok []
  | 0, _ :: _, _, _, _ => .error .fuel
  | fuel + 1, enc@(_ :: _), flags, flagbits, pos => do
    let (flags, flagbits, enc) ← (if flagbits = 0 then do
        let (f, e) ← encByte enc
        return (f, 8, e)
      else .ok (flags, flagbits, enc) : Res (Nat × Nat × Bytes))
    let flagbits := flagbits - 2
    let t := (flags >>> flagbits) &&& 3
    if t = 0 then do
      let (c, enc) ← encByte enc
      let r ← ufLoop std hi fuel enc flags flagbits (pos + 1)
      return c :: r
    else if t = 1 then do
      let (c, enc) ← encByte enc
      let r ← ufLoop std hi fuel enc flags flagbits (pos + 1)
      return (c + 256 * hi) :: r
    else if t = 2 then do
      let (c, enc) ← encByte enc
      let (d, enc) ← encByte enc
      let r ← ufLoop std hi fuel enc flags flagbits (pos + 1)
      return (c + 256 * d) :: r
    else do
      let (n, enc) ← encByte enc
      if hasFlag n 0x80 then do
        let (c, enc) ← encByte enc
        let run ← stdRun std (fun s => (s + c) % 256) hi ((n &&& 0x7F) + 2) pos
        let r ← ufLoop std hi fuel enc flags flagbits (pos + run.length)
        return run ++ r
      else do
        let run ← stdRun std id 0 (n + 2) pos
        let r ← ufLoop std hi fuel enc flags flagbits (pos + run.length)
        return run ++ r

/-- rar.py:166-192 `UnicodeFilename.decode`. -/
def unicodeFilename (std enc : Bytes) : Res Str := do
  let (hi, enc) ← encByte enc
  let units ← ufLoop std hi enc.length enc 0 0 0
  return utf16Dec units

/-- Index of the first zero byte: `name.find(b"\0")`. -/
def findZero (b : Bytes) : Option Nat := b.findIdx? (· == 0)

/-- rar.py:1049-1058: decoding the name of a packed file.  When there is no zero
byte `find` returns -1, so the standard name is `name[:-1]` and the encoded data
is the whole name. -/
def packedName (flags : Nat) (name : Bytes) : Res Str :=
  if hasFlag flags 0x200 then
    match findZero name with
    | some i => unicodeFilename (name.take i) (name.drop (i + 1))
    | none => unicodeFilename name.dropLast name
  else .ok (cp1252Dec name)

/-- The fields of a file header or NEWSUB header (rar.py:1012-1073). -/
structure FileFields where
  packedSize : Nat
  unpackedSize : Nat
  os : Nat
  fileCrc : Nat
  datetime : Nat
  rarVersion : Nat
  method : Nat
  attr : Nat
  name : Str
  origName : Bytes
  salt : Option Bytes
  times : Option ExtTimes
  deriving DecidableEq, Repr

/-- What is specific to the class of a block. -/
inductive Kind where
  | plain
  | srrHeader (app : Str)
  | stored (size : Nat) (name : Str)
  | rarFile (name : Str)
  | oso (size hash : Nat) (name : Str)
  | padding (size : Nat)
  | volHeader (r1 r2 : Nat)
  | packed (f : FileFields)
  | newSub (f : FileFields) (rr : Option (Nat × Nat))
  | oldRec (packedSize version recSectors dataSectors : Nat)
  | endArch (dataCrc volNumber : Option Nat)
  deriving DecidableEq, Repr

/-- A block object (rar.py:290-389): its position, header fields, `_rawdata`
(`block_bytes()`), and the attributes of its class. -/
structure Block where
  pos : Nat
  crc : Nat
  btype : Nat
  flags : Nat
  hsize : Nat
  addSize : Nat
  raw : Bytes
  kind : Kind
  deriving DecidableEq, Repr

/-! ### Building blocks -/

/-- rar.py:372-379 `_write_header`. -/
def writeHeader (crc btype flags hsize : Nat) : Res Bytes := do
  let a ← pack 2 crc
  let b ← pack 1 btype
  let c ← pack 2 flags
  let d ← pack 2 hsize
  return a ++ (b ++ (c ++ d))

/-- rar.py:449-463 `_pack_file_name` on POSIX (`os.sep == "/"`). -/
def packFileName (name : Str) : Res Bytes := do
  let n ← utf8Enc name
  let l ← pack 2 n.length
  return l ++ n

/-- utility.py:368-378 `is_good_srr`: none of the characters `\ : * ? " < > |`. -/
def isGoodSrr (name : Str) : Bool :=
  [0x5C, 0x3A, 0x2A, 0x3F, 0x22, 0x3C, 0x3E, 0x7C].all fun c => !name.contains c

/-- rar.py:525-545: `SrrHeaderBlock(appname=...)`, then `block_bytes()`. -/
def mkSrrHeader (app : Str) : Res Bytes := do
  let a ← utf8Enc app
  if app.length ≠ 0 then do
    let h ← writeHeader 0x6969 0x69 1 (7 + 2 + a.length)
    let l ← pack 2 a.length
    return h ++ (l ++ a)
  else
    writeHeader 0x6969 0x69 0 7

/-- rar.py:624-651 `_write_rawdata`.  `size` is an integer, possibly negative. -/
def storedRaw (name : Str) (size : Int) : Res Bytes := do
  let n ← packFileName name
  if !isGoodSrr name then throw .attrError
  else if size < 0 then throw .attrError
  else do
    let length := 7 + 4 + n.length
    if name = [] ∨ length ≥ 0x10000 then throw .attrError
    else do
      let h ← writeHeader 0x6A6A 0x6A 0x8000 length
      let s ← pack 4 size.toNat
      return h ++ (s ++ n)

/-- rar.py:594-622: `SrrStoredFileBlock(file_name=..., file_size=...)`. -/
def mkStored (name : Str) (size : Int) : Res Bytes := storedRaw name size

/-- rar.py:722-737: `SrrRarFileBlock(file_name=...)`.  With an empty name the
constructor takes the reading branch on `bbytes=None`, which raises TypeError. -/
def mkRarFile (name : Str) : Res Bytes := do
  if name = [] then throw .typeError
  else do
    let n ← packFileName name
    let h ← writeHeader 0x7171 0x71 1 (7 + n.length)
    return h ++ n

/-- rar.py:790-805: `SrrOsoHashBlock(file_size=..., file_name=..., oso_hash=...)`.
The hash argument is a 16 digit hexadecimal string; the model takes its value, and
the assertion `len(oso_hash) == 16` becomes the range check of `pack`. -/
def mkOso (size : Nat) (name : Str) (hash : Nat) : Res Bytes := do
  let n ← packFileName name
  let h ← writeHeader 0x6B6B 0x6B 0 (7 + 8 + 8 + n.length)
  let s ← pack 8 size
  let o ← pack 8 hash
  return h ++ (s ++ (o ++ n))

/-- rar.py:843-852: `SrrRarPaddingBlock(padding_bytes=...)`. -/
def mkPadding (padding : Bytes) : Res Bytes := do
  let h ← writeHeader 0x6C6C 0x6C 0x8000 11
  let s ← pack 4 padding.length
  return h ++ (s ++ padding)

/-! ### Parsing blocks -/

/-- rar.py:440-447 `_unpack_file_name` at offset `p`. -/
def unpackFileName (buf : Bytes) (p : Nat) : Res Str := do
  let l ← unpackAt 2 buf p
  utf8Dec (slice buf (p + 2) (p + 2 + l))

/-- rar.py:511-524: reading branch of `SrrHeaderBlock`. -/
def parseSrrHeader (buf : Bytes) (flags : Nat) : Res Kind := do
  if hasFlag flags 1 then do
    let l ← unpackAt 2 buf 7
    let s ← utf8Dec (slice buf 9 (9 + l))
    return .srrHeader s
  else return .srrHeader []

/-- rar.py:1012-1073: `RarPackedFileBlock`; also returns the pointer `_p`. -/
def parseFile (buf : Bytes) (flags : Nat) : Res (FileFields × Nat) := do
  let packed ← unpackAt 4 buf 7
  let unpacked ← unpackAt 4 buf 11
  let os ← unpackAt 1 buf 15
  let crc ← unpackAt 4 buf 16
  let dt ← unpackAt 4 buf 20
  let ver ← unpackAt 1 buf 24
  let method ← unpackAt 1 buf 25
  let nlen ← unpackAt 2 buf 26
  let attr ← unpackAt 4 buf 28
  let (packed, unpacked, p) ← (if hasFlag flags 0x100 then do
      let hp ← unpackAt 4 buf 32
      let hu ← unpackAt 4 buf 36
      return (packed + hp * 0x100000000, unpacked + hu * 0x100000000, 40)
    else .ok (packed, unpacked, 32) : Res (Nat × Nat × Nat))
  let orig := slice buf p (p + nlen)
  let p := p + nlen
  let name ← packedName flags orig
  let (salt, p) := if hasFlag flags 0x400 then (some (slice buf p (p + 8)), p + 8) else (none, p)
  let (times, p) ← (if hasFlag flags 0x1000 then do
      let (t, p) ← parseExtTime buf p (parseDosTime dt)
      return (some t, p)
    else .ok (none, p) : Res (Option ExtTimes × Nat))
  return (⟨packed, unpacked, os, crc, dt, ver, method, attr, name, orig, salt, times⟩, p)

/-- The string "RR". -/
def strRR : Str := [0x52, 0x52]

/-- rar.py:1354-1370 `BTYPES_CLASSES` and the constructors of its classes: the
attributes of the class of a block and the final value of `add_size` (`add` is the
value the base constructor set). -/
def mkKind (buf : Bytes) (btype flags add : Nat) : Res (Nat × Kind) := do
  if btype = 0x69 then do                       -- SrrHeaderBlock
    let k ← parseSrrHeader buf flags
    return (add, k)
  else if btype = 0x6A then do                  -- SrrStoredFileBlock
    let size ← unpackAt 4 buf 7
    let name ← unpackFileName buf 11
    return (add, .stored size name)
  else if btype = 0x71 then do                  -- SrrRarFileBlock
    let name ← unpackFileName buf 7
    return (add, .rarFile name)
  else if btype = 0x6B then do                  -- SrrOsoHashBlock
    let size ← unpackAt 8 buf 7
    let hash ← unpackAt 8 buf 15
    let name ← unpackFileName buf 23
    return (add, .oso size hash name)
  else if btype = 0x6C then do                  -- SrrRarPaddingBlock
    let size ← unpackAt 4 buf 7
    return (add, .padding size)
  else if btype = 0x73 then do                  -- RarVolumeHeaderBlock
    let r1 ← unpackAt 2 buf 7
    let r2 ← unpackAt 4 buf 9
    return (add, .volHeader r1 r2)
  else if btype = 0x74 then do                  -- RarPackedFileBlock
    let (f, _) ← parseFile buf flags
    return (f.packedSize, .packed f)
  else if btype = 0x7A then do                  -- RarNewSubBlock
    let (f, p) ← parseFile buf flags
    if f.name = strRR then do
      let rs ← unpackAt 4 buf (p + 8)
      let ds ← unpackAt 8 buf (p + 12)
      return (f.packedSize, .newSub f (some (rs, ds)))
    else return (f.packedSize, .newSub f none)
  else if btype = 0x78 then do                  -- RarOldRecoveryBlock
    let ps ← unpackAt 4 buf 7
    let ver ← unpackAt 1 buf 11
    let rs ← unpackAt 2 buf 12
    let ds ← unpackAt 4 buf 14
    return (ps, .oldRec ps ver rs ds)
  else if btype = 0x7B then do                  -- RarEndArchiveBlock
    let (c, p) ← (if hasFlag flags 2 then do
        let c ← unpackAt 4 buf 7
        return (some c, 11)
      else .ok (none, 7) : Res (Option Nat × Nat))
    let v ← (if hasFlag flags 8 then do
        let v ← unpackAt 2 buf p
        return some v
      else .ok none : Res (Option Nat))
    return (add, .endArch c v)
  else return (add, .plain)                     -- RarBlock

/-- rar.py:1605-1606: `BTYPES_CLASSES.get(btype, RarBlock)(buf, pos, name)`, with the
base constructor rar.py:348-370.  `pos = 0` makes `SrrStoredFileBlock` take the wrong
branch (rar.py:601, `filepos` is falsy) and raise AttributeError. -/
def mkBlock (buf : Bytes) (pos : Nat) : Res Block := do
  let crc ← unpackAt 2 buf 0
  let btype ← unpackAt 1 buf 2
  let flags ← unpackAt 2 buf 3
  let hsize ← unpackAt 2 buf 5
  if btype = 0x6A ∧ pos = 0 then throw .attrError
  else do
    let add ← (if hasFlag flags 0x8000 then unpackAt 4 buf 7 else .ok 0 : Res Nat)
    let (add, k) ← mkKind buf btype flags add
    return ⟨pos, crc, btype, flags, hsize, add, buf, k⟩

end Rescene
