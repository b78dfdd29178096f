import Verif.Model.Ebml
import Verif.Model.Mov
/-
MKV samples: the reader of /repo/resample/ebml.py and the `mkv_*` functions of
/repo/resample/main.py.  A main file inside RAR volumes is the unpacked stream.
-/
namespace Rescene

/-- ebml.py:157-159 `EbmlReadMode`. -/
inductive EbmlMode
  | mkv | sample | srs
  deriving DecidableEq, Repr

/-- ebml.py:199-204 `BlockElement`; the time code is not used. -/
structure EbmlBlock where
  track : Nat
  frames : List Int
  head : Bytes
  deriving DecidableEq, Repr

/-- ebml.py:186-204 `EbmlElement`.  `pos` is the position of the stream after `read`.  The length of
a block is what is left after its header, which is negative when its size is too small. -/
structure EbmlElem where
  id : Bytes
  header : Bytes
  start : Nat
  length : Int
  block : Option EbmlBlock
  pos : Nat
  deriving DecidableEq, Repr

-- ebml.py:206-247 `EbmlID`
def eSegment : Bytes := [0x18, 0x53, 0x80, 0x67]
def eCluster : Bytes := [0x1F, 0x43, 0xB6, 0x75]
def eBlockGroup : Bytes := [0xA0]
def eBlock : Bytes := [0xA1]
def eSimpleBlock : Bytes := [0xA3]
def eTrackList : Bytes := [0x16, 0x54, 0xAE, 0x6B]
def eTrack : Bytes := [0xAE]
def eTrackNumber : Bytes := [0xD7]
def eTrackCodec : Bytes := [0x86]
def eEncodingList : Bytes := [0x6D, 0x80]
def eEncoding : Bytes := [0x62, 0x40]
def eCompression : Bytes := [0x50, 0x34]
def eCompAlgorithm : Bytes := [0x42, 0x54]
def eCompSettings : Bytes := [0x42, 0x55]
def eAttachList : Bytes := [0x19, 0x41, 0xA4, 0x69]
def eAttach : Bytes := [0x61, 0xA7]
def eAttachName : Bytes := [0x46, 0x6E]
def eAttachData : Bytes := [0x46, 0x5C]
def eResample : Bytes := [0x1F, 0x69, 0x75, 0x76]
def eResampleFile : Bytes := [0x6A, 0x75]
def eResampleTrack : Bytes := [0x6B, 0x75]

/-- ebml.py:249-281 `id_type_mapping`: both kinds of blocks have the type Block. -/
def isBlockId (id : Bytes) : Bool := id == eBlock || id == eSimpleBlock

/-- ebml.py:382-427: the header of a block that starts at `p`, and the position after it.  The
negative offsets of `unpack_from` for a header of two bytes, at the end of the file, are fine;
for one of a single byte they are a `struct.error`. -/
def blockRead (file : Bytes) (p size : Nat) : Res (EbmlBlock × Nat) :=
  match file.drop p with
  | [] => .error .structError
  | b :: _ => do
    let n := uintLength b.toNat
    let tb := readAt file p (max n 1)
    let track ← getEbmlUInt tb 0 n
    let h := tb ++ readAt file (p + tb.length) 3
    if h.length < 2 then throw .structError
    else
      let flags := (h.getLast?.getD 0).toNat
      let (frames, consumed, rest) ← blockFrameLengths (laceOf flags) ((size : Int) - h.length) (file.drop (p + h.length))
      let q := file.length - rest.length
      return (⟨track, frames, h ++ readAt file (q - consumed) consumed⟩, q)

/-- ebml.py:316-437 `read`; `none` is `False`.  An ID that starts with a zero byte makes the reader
read all of the file, so that there is no size; for a size like that, and for one that is cut
short, the assertion fails. -/
def ebmlRead (mode : EbmlMode) (file : Bytes) (pos : Nat) : Res (Option EbmlElem) :=
  if pos + 2 > file.length then .ok none
  else
    match file.drop pos with
    | [] => .ok none
    | b :: _ =>
      let n := uintLength b.toNat
      if n = 0 then .ok none
      else
        match file.drop (pos + n) with
        | [] => .ok none
        | c :: _ =>
          let k := uintLength c.toNat
          let header := readAt file pos (n + k)
          if k = 0 ∨ header.length ≠ n + k then .error .assertError
          else do
            let size ← getEbmlUInt header n k
            let id := header.take n
            if mode = .sample ∧ id ≠ eSegment ∧ pos + n + k + size > file.length then throw .invalidData
            else if isBlockId id then do
              let (bl, q) ← blockRead file (pos + n + k) size
              return some ⟨id, header, pos, (size : Int) - bl.head.length, some bl, q⟩
            else return some ⟨id, header, pos, size, none, pos + n + k⟩

/-- What a caller does with an element: `move_to_child`, `read_contents` or `skip_contents`. -/
inductive EbmlHow
  | child | read | skip
  deriving DecidableEq, Repr

/-- ebml.py:439-475: the contents, and the position after it.  A length of -1 reads everything,
other negative ones are a `ValueError`; `seek` accepts them.  The frames of a block are not in an
SRS. -/
def ebmlContents (mode : EbmlMode) (how : EbmlHow) (file : Bytes) (e : EbmlElem) : Res (Bytes × Nat) :=
  match how with
  | .child => .ok ([], e.pos)
  | .skip =>
    if mode = .srs ∧ e.block.isSome = true then .ok ([], e.pos)
    else .ok ([], (e.pos + e.length).toNat)
  | .read =>
    if mode = .srs ∧ e.block.isSome = true then .ok ([], e.pos)
    else if 0 ≤ e.length then
      let d := readAt file e.pos e.length.toNat
      .ok (d, e.pos + d.length)
    else if e.length = -1 then
      let d := file.drop e.pos
      .ok (d, e.pos + d.length)
    else .error .valueError

/-- The loops over the elements.  `how` and `f` say what is done with an element; `f` also says if
the loop is done.  `again`: the reader looks for another element before the loop ends
(`while er.read() and not done`).  A step budget of one step per byte is always enough
(`mkv_loops_end` in Props/MkvEnds.lean). -/
def mkvLoop {σ : Type} (mode : EbmlMode) (again : Bool) (how : σ → EbmlElem → EbmlHow) (file : Bytes)
    (f : σ → EbmlElem → Bytes → Res (σ × Bool)) : Nat → Nat → σ → Bool → Res σ
  | 0, _, _, _ => .error .fuel
  | fuel + 1, pos, s, done => do
    match ← ebmlRead mode file pos with
    | none => return s
    | some e =>
      if done then return s
      else do
        let (data, q) ← ebmlContents mode (how s e) file e
        let (s, done) ← f s e data
        if done = true ∧ again = false then return s
        else mkvLoop mode again how file f fuel q s done

def mkvWalk {σ : Type} (mode : EbmlMode) (again : Bool) (how : σ → EbmlElem → EbmlHow) (file : Bytes)
    (f : σ → EbmlElem → Bytes → Res (σ × Bool)) (s : σ) : Res σ :=
  mkvLoop mode again how file f (file.length + 1) 0 s false

/-- main.py:370-437 `TrackData`: the attributes that are used for MKV.  `len` is `data_length`,
`offset` is `match_offset`. -/
structure MkvTrack where
  flags : Nat := 0
  number : Nat := 0
  len : Int := 0
  offset : Int := 0
  sig : Bytes := []
  settings : Bytes := []
  matchLen : Int := 0
  check : Bytes := []
  deriving DecidableEq, Repr

/-- A `dict` from track numbers to tracks, in insertion order. -/
abbrev MkvTracks := List (Nat × MkvTrack)

/-- `d[n] = t`. -/
def dictPut {α : Type} : List (Nat × α) → Nat → α → List (Nat × α)
  | [], n, t => [(n, t)]
  | (k, x) :: l, n, t => if k = n then (k, t) :: l else (k, x) :: dictPut l n t

/-- Python's `l[a:b]`. -/
def pySlice (l : Bytes) (a b : Int) : Bytes :=
  let at' := fun (i : Int) => if i < 0 then (i + l.length).toNat else i.toNat
  (l.take (at' b)).drop (at' a)

/-- main.py:543-548 `isascii`. -/
def isAscii (b : Bytes) : Bool := b.all fun x => decide (x.toNat < 128)

/-- main.py:1082-1091 `minimum_signature_size`. -/
def minSigSize (content : Bytes) (already : Nat) : Nat :=
  let loop := ((List.range' 1 39).find? fun (k : Nat) =>
    !isAscii (pySlice content (256 * (k : Int) - (already : Int) - 64) (256 * (k : Int) - (already : Int)))).getD 40
  (if loop = 40 then 256 else 256 * loop) - already

/-- main.py:1093-1099: the signature of a track grows. -/
def growSig (sig content : Bytes) : Bytes :=
  if sig.length < 256 then sig ++ content.take (minSigSize content sig.length) else sig

structure MkvProfile where
  other : Nat := 0
  crc : BitVec 32 := 0
  tracks : MkvTracks := []
  cur : Nat := 0
  strip : Bool := false
  attach : Nat := 0

/-- main.py:1020-1165: what is done with an element by `mkv_profile_sample`. -/
def mkvProfileHow (_ : MkvProfile) (e : EbmlElem) : EbmlHow :=
  if e.id = eSegment ∨ e.id = eCluster ∨ e.id = eBlockGroup ∨ e.id = eTrackList ∨ e.id = eTrack ∨
    e.id = eEncodingList ∨ e.id = eEncoding ∨ e.id = eAttachList ∨ e.id = eAttach ∨ e.id = eCompression then .child
  else .read

/-- main.py:1064-1165: an element whose contents are read by `mkv_profile_sample`. -/
def mkvProfileLeaf (s : MkvProfile) (id : Bytes) (length : Int) (data : Bytes) : Res (MkvProfile × Bool) :=
  let s := { s with crc := crc32 data s.crc }
  if id = eAttachData then .ok ({ s with attach := s.attach + data.length }, false)
  else
    let s := { s with other := s.other + length.toNat }
    if id = eTrackNumber then do
      let n ← getEbmlUInt data 0 data.length
      return ({ s with cur := n, tracks := if (movGet s.tracks n).isSome then s.tracks
                                            else dictPut s.tracks n { number := n } }, false)
    else if id = eTrackCodec then
      if (movGet s.tracks s.cur).isSome then .ok (s, false) else .error .keyError
    else if id = eCompAlgorithm then do
      let a ← getEbmlUInt data 0 data.length
      if (movGet s.tracks s.cur).isSome then return ({ s with strip := a == 3 }, false)
      else throw .keyError
    else if id = eCompSettings then
      if s.strip then
        match movGet s.tracks s.cur with
        | some t => .ok ({ s with tracks := dictPut s.tracks s.cur { t with settings := data } }, false)
        | none => .error .keyError
      else .ok (s, false)
    else if id = eAttachName then do
      let _ ← utf8Dec data
      return (s, false)
    else .ok (s, false)

/-- main.py:1011-1167: one turn of the loop of `mkv_profile_sample`. -/
def mkvProfileItem (s : MkvProfile) (e : EbmlElem) (data : Bytes) : Res (MkvProfile × Bool) :=
  let s := { s with other := s.other + e.header.length, crc := crc32 e.header s.crc }
  match e.block with
  | some b =>
    let t := (movGet s.tracks b.track).getD { number := b.track }
    let t := { t with len := t.len + e.length, sig := growSig t.sig data }
    .ok ({ s with other := s.other + b.head.length, crc := crc32 data (crc32 b.head s.crc),
                  tracks := dictPut s.tracks b.track t }, false)
  | none =>
    if mkvProfileHow s e = .child then
      if e.id = eCompression ∧ (movGet s.tracks s.cur).isNone then .error .keyError
      else .ok (s, false)
    else mkvProfileLeaf s e.id e.length data

/-- Sum of the lengths of the tracks. -/
def mkvTotal (ts : MkvTracks) : Int := ts.foldr (fun t n => t.2.len + n) 0

/-- main.py:985-1199 `mkv_profile_sample`: the CRC and the tracks. -/
def mkvProfile (sample : Bytes) : Res (BitVec 32 × MkvTracks) := do
  let s ← mkvWalk .sample true mkvProfileHow sample mkvProfileItem {}
  if (sample.length : Int) ≠ s.other + s.attach + mkvTotal s.tracks then throw .incompleteSample
  else return (s.crc, s.tracks)

/-- main.py:439-464 for MKV: a negative length is a `struct.error`. -/
def mkvTrackBytes (t : MkvTrack) : Res Bytes :=
  if t.len < 0 then .error .structError
  else trackSerialize { flags := t.flags, number := t.number, dataLength := t.len.toNat, matchOffset := t.offset, sig := t.sig }

/-- main.py:320-326, 466-472 `serialize_as_ebml`: ID, length and data of an element. -/
def ebmlElement (id data : Bytes) : Res Bytes := do
  let n ← makeEbmlUInt data.length
  return id ++ (n ++ data)

/-- main.py:1921-1938: the elements that are written after the header of the segment. -/
def mkvOwn (app name : Str) (size crc : Nat) (tracks : MkvTracks) (bigFile : Bool) : Res Bytes := do
  let f ← fileSerialize app 3 name size crc
  let fe ← ebmlElement eResampleFile f
  let te ← tracks.mapM fun (_, t) => do
    let t := if bigFile then { t with flags := t.flags ||| 4 } else t
    let d ← mkvTrackBytes t
    ebmlElement eResampleTrack d
  ebmlElement eResample (fe ++ te.flatten)

/-- main.py:1919-1961: what is done with an element by `mkv_create_srs`. -/
def mkvCreateHow (_ : Bytes) (e : EbmlElem) : EbmlHow :=
  if e.id = eSegment ∨ e.id = eCluster ∨ e.id = eBlockGroup ∨ e.id = eAttachList ∨ e.id = eAttach then .child
  else if e.id = eAttachData ∨ e.block.isSome = true then .skip
  else .read

/-- main.py:1915-1961: one turn of the loop of `mkv_create_srs`. -/
def mkvCreateItem (own : Res Bytes) (out : Bytes) (e : EbmlElem) (data : Bytes) : Res (Bytes × Bool) :=
  let out := out ++ e.header
  match e.block with
  | some b => .ok (out ++ b.head, false)
  | none =>
    if e.id = eSegment then do
      let b ← own
      return (out ++ b, false)
    else .ok (out ++ data, false)

/-- main.py:1912-1962 `mkv_create_srs`: the bytes of the SRS. -/
def mkvCreateSrs (app name : Str) (size crc : Nat) (tracks : MkvTracks) (bigFile : Bool) (sample : Bytes) : Res Bytes :=
  mkvWalk .mkv true mkvCreateHow sample (mkvCreateItem (mkvOwn app name size crc tracks bigFile)) []

structure MkvLoad where
  file : Option FileData := none
  tracks : MkvTracks := []
  cur : Nat := 0
  strip : Bool := false

/-- main.py:753-790: what is done with an element by `mkv_load_srs`. -/
def mkvLoadHow (_ : MkvLoad) (e : EbmlElem) : EbmlHow :=
  if e.id = eSegment ∨ e.id = eTrackList ∨ e.id = eTrack ∨ e.id = eEncodingList ∨ e.id = eEncoding ∨
    e.id = eCompression ∨ e.id = eResample then .child
  else if e.id = eTrackNumber ∨ e.id = eTrackCodec ∨ e.id = eCompAlgorithm ∨ e.id = eCompSettings ∨
    e.id = eResampleFile ∨ e.id = eResampleTrack then .read
  else .skip

/-- main.py:752-790: one turn of the loop of `mkv_load_srs`. -/
def mkvLoadItem (s : MkvLoad) (e : EbmlElem) (data : Bytes) : Res (MkvLoad × Bool) :=
  if e.id = eTrackNumber then do
    let n ← getEbmlUInt data 0 data.length
    return ({ s with cur := n }, false)
  else if e.id = eCompAlgorithm then do
    let a ← getEbmlUInt data 0 data.length
    return ({ s with strip := a == 3 }, false)
  else if e.id = eCompSettings then
    if s.strip then
      match movGet s.tracks s.cur with
      | some t => .ok ({ s with tracks := dictPut s.tracks s.cur { t with settings := data } }, false)
      | none => .ok (s, false)
    else .ok (s, false)
  else if e.id = eResampleFile then do
    let f ← fileParse data
    return ({ s with file := some f }, false)
  else if e.id = eResampleTrack then do
    let t ← trackParse data
    let m : MkvTrack := { flags := t.flags, number := t.number, len := t.dataLength, offset := t.matchOffset, sig := t.sig }
    return ({ s with tracks := dictPut s.tracks t.number m }, false)
  else if e.id = eCluster ∨ e.id = eAttachList then .ok (s, true)
  else .ok (s, false)

/-- main.py:744-803 `mkv_load_srs`. -/
def mkvLoadSrs (file : Bytes) : Res (Option FileData × MkvTracks) := do
  let s ← mkvWalk .srs false mkvLoadHow file mkvLoadItem {}
  return (s.file, s.tracks)

/-- main.py:550-556 `enough_signature_data`. -/
def enoughSignature (t : MkvTrack) : Bool :=
  if t.len > 1000000 then !isAscii (t.sig.drop (t.sig.length - 64)) else true

/-- The state of `mkv_find_sample_streams`: the tracks of the sample, and the settings of the tracks
of the main file. -/
structure MkvFind where
  tracks : MkvTracks
  mains : List (Nat × Bytes) := []
  cur : Nat := 0
  strip : Bool := false

/-- main.py:2330-2372: one frame.  `base` is where the frames of the block start; `ss` and `sm` are
`sforsample` and `sformain`. -/
def mkvFindFrame (base : Int) (ss sm buff : Bytes) (t : MkvTrack) (offset frame : Int) : MkvTrack :=
  let fl := frame + ss.length - sm.length
  let t1 := if 0 < t.check.length ∧ t.check.length < t.sig.length then
      let lcb := min (t.sig.length : Int) (fl + t.check.length)
      let cb := t.check ++ ss ++ pySlice buff (offset + sm.length) (offset + sm.length + lcb - t.check.length - ss.length)
      if cb.isPrefixOf t.sig then { t with check := cb }
      else { t with check := [], offset := 0, matchLen := 0 }
    else t
  if t1.check = [] then
    let lcb := min (t.sig.length : Int) fl
    let cb := ss ++ pySlice buff (offset + sm.length) (offset + sm.length + lcb - ss.length)
    if cb.isPrefixOf t.sig then { t1 with check := cb, offset := base + offset, matchLen := min t.len fl }
    else t1
  else { t1 with matchLen := t1.matchLen + min (t1.len - t1.matchLen) fl }

def mkvFindFrames (base : Int) (ss sm buff : Bytes) : MkvTrack → Int → List Int → MkvTrack
  | t, _, [] => t
  | t, offset, fr :: rest =>
    mkvFindFrames base ss sm buff (mkvFindFrame base ss sm buff t offset fr) (offset + fr) rest

/-- main.py:2329: the block is searched. -/
def MkvTrack.search (t : MkvTrack) : Bool :=
  t.sig ≠ [] && (t.offset == 0 || decide (t.check.length < t.sig.length))

/-- The track of a block; main.py:2301-2303: a new one if there is none. -/
def mkvTrackOf (ts : MkvTracks) (n : Nat) : MkvTrack := (movGet ts n).getD { number := n }

/-- main.py:2253-2292: what is done with an element by `mkv_find_sample_streams`. -/
def mkvFindHow (s : MkvFind) (e : EbmlElem) : EbmlHow :=
  match e.block with
  | some b => if (mkvTrackOf s.tracks b.track).search then .read else .skip
  | none =>
    if e.id = eSegment ∨ e.id = eBlockGroup ∨ e.id = eTrackList ∨ e.id = eTrack ∨ e.id = eEncodingList ∨
      e.id = eEncoding ∨ e.id = eCompression ∨ e.id = eCluster then .child
    else if e.id = eTrackNumber ∨ e.id = eTrackCodec ∨ e.id = eCompAlgorithm ∨ e.id = eCompSettings then .read
    else .skip

/-- main.py:2298-2393 `_mkv_block_find`.  The offsets that are collected for tracks with a short
signature (`_extra_offsets_x265_bug`), which are only used for another attempt when the first fails,
are in MkvRetry: here those blocks are skipped like others. -/
def mkvBlockFind (s : MkvFind) (e : EbmlElem) (b : EbmlBlock) (buff : Bytes) : MkvFind × Bool :=
  let t := mkvTrackOf s.tracks b.track
  let set := (movGet s.mains b.track).getD []
  let mains := if (movGet s.mains b.track).isSome then s.mains else dictPut s.mains b.track []
  let differ : Bool := t.settings ≠ set
  let sm := if differ then t.settings else []
  let ss := if differ then set else []
  if t.search then
    let base : Int := e.start + e.header.length + b.head.length
    ({ s with tracks := dictPut s.tracks b.track (mkvFindFrames base ss sm buff t 0 b.frames), mains := mains }, false)
  else if t.matchLen < t.len then
    let t := { t with matchLen := t.matchLen + min (t.len - t.matchLen) e.length }
    let tracks := dictPut s.tracks b.track t
    ({ s with tracks := tracks, mains := mains }, tracks.all fun x => decide (x.2.len ≤ x.2.matchLen))
  else ({ s with tracks := dictPut s.tracks b.track t, mains := mains }, false)

/-- main.py:2275-2290, 3121-3136: the elements of a track of the main file. -/
def mkvMainItem (mains : List (Nat × Bytes)) (cur : Nat) (strip : Bool) (id data : Bytes) :
    Res (List (Nat × Bytes) × Nat × Bool) :=
  if id = eTrackNumber then do
    let n ← getEbmlUInt data 0 data.length
    return (if (movGet mains n).isSome then mains else dictPut mains n [], n, strip)
  else if id = eCompAlgorithm then do
    let a ← getEbmlUInt data 0 data.length
    return (mains, cur, a == 3)
  else if id = eCompSettings then
    if strip then
      if (movGet mains cur).isSome then .ok (dictPut mains cur data, cur, strip) else .error .keyError
    else .ok (mains, cur, strip)
  else .ok (mains, cur, strip)

/-- main.py:2252-2292: one turn of the loop of `mkv_find_sample_streams`. -/
def mkvFindItem (s : MkvFind) (e : EbmlElem) (data : Bytes) : Res (MkvFind × Bool) :=
  match e.block with
  | some b => .ok (mkvBlockFind s e b data)
  | none =>
    if e.id = eTrackCodec then
      if (movGet s.mains s.cur).isSome then .ok (s, false) else .error .keyError
    else do
      let (mains, cur, strip) ← mkvMainItem s.mains s.cur s.strip e.id data
      return ({ s with mains := mains, cur := cur, strip := strip }, false)

/-- main.py:2241-2296 `mkv_find_sample_streams`. -/
def mkvFind (tracks : MkvTracks) (main : Bytes) : Res MkvTracks := do
  let s ← mkvWalk .mkv true mkvFindHow main mkvFindItem { tracks := tracks }
  return s.tracks

/-- The attachments by name, in bytes: `none` as long as there is no data. -/
abbrev MkvAttach := List (Bytes × Option Bytes)

def attachGet (l : MkvAttach) (n : Bytes) : Option (Option Bytes) := (l.find? (·.1 == n)).map (·.2)

def attachPut : MkvAttach → Bytes → Option Bytes → MkvAttach
  | [], n, d => [(n, d)]
  | (k, x) :: l, n, d => if k = n then (k, d) :: l else (k, x) :: attachPut l n d

structure MkvExtract where
  files : TrackFiles := fun _ => none
  mains : List (Nat × Bytes) := []
  cur : Nat := 0
  strip : Bool := false
  atts : MkvAttach := []
  att : Option Bytes := none

/-- main.py:3186-3210: what is written for a frame.  `ss` are the settings of the track of the main
file, `sm` those of the sample. -/
def mkvPiece (ss sm buff : Bytes) (offset frame : Int) : Bytes :=
  if sm ≠ [] ∧ ss ≠ [] then
    if ss = sm then pySlice buff offset (offset + frame)
    else if ss.length < sm.length then
      pySlice buff (offset + ((sm.length : Int) - ss.length)) (offset + frame)
    else if ss.length > sm.length then
      ss.drop (ss.length - (ss.length - sm.length)) ++ pySlice buff offset (offset + frame)
    else []
  else ss ++ pySlice buff (offset + sm.length) (offset + frame)

/-- main.py:3179-3211: the loop over the frames. -/
def mkvWriteFrames (t : MkvTrack) (base : Int) (ss sm buff : Bytes) : Bytes → Int → List Int → Bytes
  | out, _, [] => out
  | out, offset, fr :: rest =>
    let out := if base + offset ≥ t.offset ∧ (out.length : Int) < t.len then out ++ mkvPiece ss sm buff offset fr else out
    mkvWriteFrames t base ss sm buff out (offset + fr) rest

/-- main.py:3172-3175: the frames of the block go on behind the match offset. -/
def mkvWanted (t : MkvTrack) (e : EbmlElem) (b : EbmlBlock) : Bool :=
  decide ((e.start : Int) + e.header.length + b.head.length + e.length > t.offset)

/-- main.py:3089-3150: what is done with an element by `mkv_extract_sample_streams`. -/
def mkvExtractHow (tracks : MkvTracks) (start : Nat) (s : MkvExtract) (e : EbmlElem) : EbmlHow :=
  match e.block with
  | some b =>
    match movGet tracks b.track with
    | none => .skip
    | some t => if (movGet s.mains b.track).isSome ∧ mkvWanted t e b = true then .read else .skip
  | none =>
    if e.id = eCluster then
      if (e.start : Int) + e.header.length + e.length < start then .skip else .child
    else if e.id = eSegment ∨ e.id = eBlockGroup ∨ e.id = eTrackList ∨ e.id = eTrack ∨ e.id = eEncodingList ∨
      e.id = eEncoding ∨ e.id = eCompression ∨ e.id = eAttachList ∨ e.id = eAttach then .child
    else if e.id = eTrackNumber ∨ e.id = eCompAlgorithm ∨ e.id = eCompSettings ∨ e.id = eAttachName ∨
      e.id = eAttachData then .read
    else .skip

/-- main.py:3158-3225 `_mkv_block_extract`. -/
def mkvBlockExtract (tracks : MkvTracks) (s : MkvExtract) (e : EbmlElem) (b : EbmlBlock) (buff : Bytes) :
    Res (MkvExtract × Bool) :=
  match movGet tracks b.track with
  | none => .ok (s, false)
  | some t =>
    match movGet s.mains b.track with
    | none => .error .keyError
    | some ss =>
      if mkvWanted t e b then
        let base : Int := e.start + e.header.length + b.head.length
        let files := s.files.set b.track (mkvWriteFrames t base ss t.settings buff ((s.files b.track).getD []) 0 b.frames)
        .ok ({ s with files := files }, tracks.all fun x =>
          match files x.1 with
          | none => false
          | some d => decide (x.2.len ≤ (d.length : Int)))
      else .ok (s, false)

/-- main.py:3088-3150: one turn of the loop of `mkv_extract_sample_streams`.  The data of a second
attachment of the same name is neither read nor skipped, and the assertion of the next `read`
fails. -/
def mkvExtractItem (tracks : MkvTracks) (s : MkvExtract) (e : EbmlElem) (data : Bytes) : Res (MkvExtract × Bool) :=
  match e.block with
  | some b => mkvBlockExtract tracks s e b data
  | none =>
    if e.id = eAttachName then
      .ok ({ s with att := some data, atts := if (attachGet s.atts data).isSome then s.atts else attachPut s.atts data none }, false)
    else if e.id = eAttachData then
      match s.att with
      | none => .error .keyError
      | some n =>
        match attachGet s.atts n with
        | none => .error .keyError
        | some (some _) => .error .assertError
        | some none => .ok ({ s with atts := attachPut s.atts n (some data) }, false)
    else do
      let (mains, cur, strip) ← mkvMainItem s.mains s.cur s.strip e.id data
      return ({ s with mains := mains, cur := cur, strip := strip }, false)

/-- main.py:3076-3079: where the first track starts. -/
def mkvStart (tracks : MkvTracks) : Nat :=
  tracks.foldl (fun m t => if t.2.offset > 0 then min t.2.offset.toNat m else m) (2 ^ 63)

/-- main.py:3071-3156 `mkv_extract_sample_streams`: the files of the tracks and the attachments. -/
def mkvExtract (tracks : MkvTracks) (main : Bytes) : Res (TrackFiles × MkvAttach) := do
  let s ← mkvWalk .mkv true (mkvExtractHow tracks (mkvStart tracks)) main (mkvExtractItem tracks) {}
  return (s.files, s.atts)

structure MkvRebuild where
  out : Bytes := []
  crc : BitVec 32 := 0
  files : TrackFiles
  atts : MkvAttach
  att : Option Bytes := none

/-- main.py:3485-3532: what is done with an element by `mkv_rebuild_sample`. -/
def mkvRebuildHow (flags : Nat) (_ : MkvRebuild) (e : EbmlElem) : EbmlHow :=
  if e.id = eResample then .skip
  else if e.id = eSegment ∨ e.id = eAttachList ∨ e.id = eAttach ∨ e.id = eBlockGroup ∨ e.id = eCluster ∨
    e.block.isSome = true then .child
  else if e.id = eAttachData then if hasFlag flags 2 then .child else .skip
  else .read

/-- main.py:3515-3519: `track_file.read(length)`: what is read and what is left. -/
def takeLength (rest : Bytes) (n : Int) : Res (Bytes × Bytes) :=
  if 0 ≤ n then .ok (rest.take n.toNat, rest.drop n.toNat)
  else if n = -1 then .ok (rest, [])
  else .error .valueError

/-- main.py:3480-3532: one turn of the loop of `mkv_rebuild_sample`.  Files are read on from where
the last read stopped. -/
def mkvRebuildItem (tracks : MkvTracks) (s : MkvRebuild) (e : EbmlElem) (data : Bytes) : Res (MkvRebuild × Bool) :=
  if e.id = eResample then .ok (s, false)
  else
    let s := { s with out := s.out ++ e.header, crc := crc32 e.header s.crc }
    match e.block with
    | some b =>
      match movGet tracks b.track with
      | none => .error .keyError
      | some _ =>
        match s.files b.track with
        | none => .error .attrError
        | some rest => do
          let (buff, rest) ← takeLength rest e.length
          return ({ s with out := s.out ++ b.head ++ buff, crc := crc32 buff (crc32 b.head s.crc),
                           files := s.files.set b.track rest }, false)
    | none =>
      if e.id = eAttachData then
        match s.att with
        | none => .error .keyError
        | some n =>
          match attachGet s.atts n with
          | none => .error .keyError
          | some none => .error .attrError
          | some (some d) => .ok ({ s with out := s.out ++ d, crc := crc32 d s.crc, atts := attachPut s.atts n (some []) }, false)
      else
        .ok ({ s with out := s.out ++ data, crc := crc32 data s.crc,
                      att := if e.id = eAttachName then some data else s.att }, false)

/-- main.py:3470-3538 `mkv_rebuild_sample`: contents and CRC of the result. -/
def mkvRebuild (srs : Bytes) (flags : Nat) (tracks : MkvTracks) (files : TrackFiles) (atts : MkvAttach) :
    Res (Bytes × BitVec 32) := do
  let s ← mkvWalk .srs true (mkvRebuildHow flags) srs (mkvRebuildItem tracks) { files := files, atts := atts }
  return (s.out, s.crc)

/-- srs.py:463-470, 139-146: a track was not located. -/
def mkvUnlocated (tracks : MkvTracks) : Bool := tracks.any fun t => t.2.sig ≠ [] && t.2.offset == 0

/-- srs.py:294-378: create the SRS of an MKV sample.  `check` is the main file given with `-c`. -/
def srsMkvCreate (app name : Str) (sample : Bytes) (bigFile : Bool) (check : Option Bytes) : Res Bytes :=
  if sample.length ≥ 0x80000000 ∧ bigFile = false then .error .other
  else do
    let (crc, tracks) ← mkvProfile sample
    if tracks = [] then throw .other
    else do
      let tracks ← (match check with
        | none => .ok tracks
        | some main => do
          let tr ← mkvFind tracks main
          if mkvUnlocated tr then throw .other
          else return tr.filter (fun t => t.2.sig ≠ []) : Res MkvTracks)
      mkvCreateSrs app name sample.length crc.toNat tracks bigFile sample

/-- srs.py:438-517, 586: rebuild an MKV sample from its SRS and a main file.  When the CRC is wrong and
a track has a short signature, other offsets are tried (srs.py:518-584): this is the first attempt,
MkvRetry has the others.  An SRS without description is an `AttributeError`. -/
def srsMkvReconstruct (srs main : Bytes) (ignoreOffset : Bool) : Res SrsResult := do
  let (f, tracks) ← mkvLoadSrs srs
  let tracks ← (if ignoreOffset = true ∨ tracks.any (fun t => t.2.offset == 0) = true ∨
        tracks.any (fun t => !enoughSignature t.2) = true then do
      let tr ← mkvFind tracks main
      if mkvUnlocated tr then throw .other   -- exit status 3
      else return tr
    else .ok tracks : Res MkvTracks)
  let (files, atts) ← mkvExtract tracks main
  if tracks.any (fun t => t.2.sig ≠ [] && (match files t.1 with
      | none => true
      | some b => decide ((b.length : Int) < t.2.len))) then throw .other   -- exit status 4
  else
    match f with
    | none => throw .attrError
    | some f => do
      let (out, crc) ← mkvRebuild srs f.flags tracks files atts
      return ⟨out, f.size, f.crc, crc.toNat == f.crc⟩

end Rescene
