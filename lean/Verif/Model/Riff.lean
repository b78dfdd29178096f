import Verif.Model.StreamSrs
/-
AVI samples: /repo/resample/riff.py and the `avi_*` functions of /repo/resample/main.py.
-/
namespace Rescene

/-- riff.py:53-60. -/
inductive RiffMode
  | avi | sample | srs
  deriving DecidableEq, Repr

/-- riff.py:62-63; `SrsFile` and `SrsTrack` are never used. -/
inductive RiffKind
  | list | movi | index | unknown
  deriving DecidableEq, Repr

/-- riff.py:65-76: a chunk as `read` leaves it.  `size` is the length field; `length` of a list is
four less (riff.py:234). -/
structure RiffChunk where
  kind : RiffKind
  fourcc : Bytes
  listType : Bytes
  size : Nat
  header : Bytes
  start : Nat
  deriving DecidableEq, Repr

/-- `current_chunk.length`. -/
def RiffChunk.length (c : RiffChunk) : Int := if c.kind = .list then (c.size : Int) - 4 else c.size

/-- riff.py:260 `has_padding`: the parity of the length. -/
def RiffChunk.padded (c : RiffChunk) : Bool := c.size % 2 == 1

/-- riff.py:252 `int(fourcc[:2])`. -/
def RiffChunk.stream (c : RiffChunk) : Nat :=
  match c.fourcc with
  | a :: b :: _ => 10 * (a.toNat - 0x30) + (b.toNat - 0x30)
  | _ => 0

def isDigitB (b : UInt8) : Bool := 0x30 ≤ b && b ≤ 0x39

/-- `[ 0-9A-Za-z]`. -/
def isFourccB (b : UInt8) : Bool := b == 0x20 || isDigitB b || (0x41 ≤ b && b ≤ 0x5A) || (0x61 ≤ b && b ≤ 0x7A)

/-- riff.py:44 `fourCCValidator.match`, on at most four bytes. -/
def validFourcc (b : Bytes) : Bool := b.length == 4 && b.all isFourccB

def cRIFF : Bytes := [0x52, 0x49, 0x46, 0x46]
def cLIST : Bytes := [0x4C, 0x49, 0x53, 0x54]
def cMovi : Bytes := [0x6D, 0x6F, 0x76, 0x69]
def cAvi : Bytes := [0x41, 0x56, 0x49, 0x20]
def cIdx1 : Bytes := [0x69, 0x64, 0x78, 0x31]

/-- riff.py:198-262 `read`: `none` when there is no room for a chunk, else the chunk and the
position behind its header.  The assertion at the start holds in all uses. -/
def riffRead (mode : RiffMode) (file : Bytes) (pos : Nat) : Res (Option (RiffChunk × Nat)) :=
  if pos + 8 > file.length then .ok none
  else do
    let h := readAt file pos 8
    let fourcc := h.take 4
    let size ← unpackAt 4 h 4
    if validFourcc fourcc = false then throw .invalidData
    else if mode = .sample ∧ fourcc ≠ cRIFF ∧ pos + 8 + size > file.length then throw .invalidData
    else if fourcc = cRIFF ∨ fourcc = cLIST then
      let more := readAt file (pos + 8) 4
      return some (⟨.list, more, fourcc, size, h ++ more, pos⟩, pos + 8 + more.length)
    else
      let kind := if (h.take 2).all isDigitB then RiffKind.movi else if fourcc = cIdx1 then .index else .unknown
      return some (⟨kind, fourcc, [], size, h, pos⟩, pos + 8)

/-- riff.py:264-292 `read_contents` and `skip_contents` of the chunk whose header ends at `p`:
contents, padding byte, and the position after it.  Without a padding byte at the end of the file
this is a `struct.error`.  Reading and skipping end at the same place, except behind the end of
the file, where both make the next `read` return False.  In an SRS the data of stream chunks is
left out. -/
def riffContents (mode : RiffMode) (file : Bytes) (c : RiffChunk) (p : Nat) : Res (Bytes × Option UInt8 × Nat) :=
  let n : Int := if mode = .srs ∧ c.kind = .movi then 0 else c.length
  let data := readAt file p n.toNat
  let q := (p + n).toNat
  if c.padded then
    match readAt file q 1 with
    | b :: _ => .ok (data, some b, q + 1)
    | [] => .error .structError
  else .ok (data, none, q)

/-- One chunk: what a caller sees of it. -/
structure RiffItem where
  chunk : RiffChunk
  data : Bytes
  pad : Option UInt8
  deriving DecidableEq, Repr

/-- `read` and then `move_to_child` for the lists in `enter`, else `read_contents` or
`skip_contents`. -/
def riffNext (mode : RiffMode) (enter : RiffChunk → Bool) (file : Bytes) (pos : Nat) :
    Res (Option (RiffItem × Nat)) := do
  match ← riffRead mode file pos with
  | none => return none
  | some (c, p) =>
    if c.kind = .list ∧ enter c = true then return some (⟨c, [], none⟩, p)
    else do
      let (data, pad, q) ← riffContents mode file c p
      return some (⟨c, data, pad⟩, q)

/-- The loops over all chunks; `f` says whether to go on.  With `peek` the loop is
`while rr.read() and not done`: the next chunk is read before `done` is looked at.  A step budget
of one step per byte is enough (`riff_terminates`). -/
def riffLoop {σ : Type} (mode : RiffMode) (enter : RiffChunk → Bool) (peek : Bool) (file : Bytes)
    (f : σ → RiffItem → Res (σ × Bool)) : Nat → Nat → σ → Res σ
  | 0, _, _ => .error .fuel
  | fuel + 1, pos, s => do
    match ← riffNext mode enter file pos with
    | none => return s
    | some (it, q) => do
      let (s, go) ← f s it
      if go then riffLoop mode enter peek file f fuel q s
      else if peek then do
        let _ ← riffRead mode file q
        return s
      else return s

def riffWalk {σ : Type} (mode : RiffMode) (enter : RiffChunk → Bool) (peek : Bool) (file : Bytes)
    (f : σ → RiffItem → Res (σ × Bool)) (s : σ) : Res σ :=
  riffLoop mode enter peek file f (file.length + 1) 0 s

/-- A dict entry, or a new `TrackData()` with this number. -/
def Tracks.getNew (l : Tracks) (n : Nat) : TrackData :=
  match l.find? (·.1 == n) with
  | some (_, t) => { t with number := n }
  | none => { number := n }

structure AviProfile where
  crc : BitVec 32
  other : Nat
  tracks : Tracks

/-- main.py:901-950: one turn of the loop of `avi_profile_sample`. -/
def aviProfileItem (s : AviProfile) (it : RiffItem) : Res (AviProfile × Bool) :=
  let other := s.other + it.chunk.header.length
  let crc := crc32 it.chunk.header s.crc
  if it.chunk.kind = .list then .ok (⟨crc, other, s.tracks⟩, true)
  else
    let n := it.chunk.stream
    let (crc, other, tracks) :=
      (if it.chunk.kind = .movi then
        let t := s.tracks.getNew n
        let sig := if t.sig.length < 256 then
            t.sig ++ it.data.take (min 256 (t.sig.length + it.chunk.size) - t.sig.length)
          else t.sig
        (crc32 it.data crc, other, s.tracks.put n { t with dataLength := t.dataLength + it.chunk.size, sig := sig })
      else (crc32 it.data crc, other + it.chunk.size, s.tracks) : BitVec 32 × Nat × Tracks)
    match it.pad with
    | some b => .ok (⟨crc32 [b] crc, other + 1, tracks⟩, true)
    | none => .ok (⟨crc, other, tracks⟩, true)

/-- main.py:890-983 `avi_profile_sample`.  Not modelled: what it prints. -/
def aviProfile (sample : Bytes) : Res (BitVec 32 × Tracks) := do
  let s ← riffWalk .sample (fun _ => true) false sample aviProfileItem ⟨0, 0, []⟩
  if sample.length ≠ s.other + (s.tracks.map (·.2.dataLength)).sum then throw .incompleteSample
  else return (s.crc, s.tracks)

/-- main.py:329-334 and 475-480 `serialize_as_riff`, and the padding of main.py:1886-1897. -/
def riffBlock (marker data : Bytes) : Res Bytes := do
  let n ← pack 4 data.length
  let chunk := marker ++ (n ++ data)
  return if chunk.length % 2 = 1 then chunk ++ [0] else chunk

/-- main.py:1884-1897: our chunks. -/
def aviSrsChunks (app name : Str) (size crc : Nat) (tracks : Tracks) (bigFile : Bool) : Res Bytes := do
  let f ← fileSerialize app 3 name size crc
  let fb ← riffBlock mSRSF f
  let tb ← tracks.mapM fun (_, t) => do
    let t := if bigFile then { t with flags := t.flags ||| 4 } else t
    let d ← trackSerialize t
    riffBlock mSRST d
  return fb ++ tb.flatten

/-- main.py:1874-1909: one turn of the loop of `avi_create_srs`. -/
def aviCreateItem (own : Res Bytes) (out : Bytes) (it : RiffItem) : Res (Bytes × Bool) :=
  let out := out ++ it.chunk.header
  if it.chunk.kind = .list then
    if it.chunk.listType = cLIST ∧ it.chunk.fourcc = cMovi then do
      let b ← own
      return (out ++ b, true)
    else .ok (out, true)
  else
    let out := if it.chunk.kind = .movi then out else out ++ it.data
    .ok (out ++ it.pad.toList, true)

/-- main.py:1871-1910 `avi_create_srs`: the bytes of the SRS. -/
def aviCreateSrs (app name : Str) (size crc : Nat) (tracks : Tracks) (bigFile : Bool) (sample : Bytes) : Res Bytes :=
  riffWalk .avi (fun _ => true) false sample (aviCreateItem (aviSrsChunks app name size crc tracks bigFile)) []

/-- main.py:723-741: one turn of the loop of `avi_load_srs`. -/
def aviLoadItem (s : Option FileData × Tracks) (it : RiffItem) : Res ((Option FileData × Tracks) × Bool) :=
  if it.chunk.kind = .list then .ok (s, true)
  else if it.chunk.fourcc = mSRSF then do
    let f ← fileParse it.data
    return ((some f, s.2), true)
  else if it.chunk.fourcc = mSRST then do
    let t ← trackParse it.data
    return ((s.1, s.2.put t.number t), true)
  else if it.chunk.kind = .movi then .ok (s, false)
  else .ok (s, true)

/-- main.py:719-743 `avi_load_srs`. -/
def aviLoadSrs (file : Bytes) : Res (FileData × Tracks) := do
  let (f, tracks) ← riffWalk .srs (fun _ => true) false file aviLoadItem (none, [])
  match f with
  | none => throw .unboundLocal
  | some f => return (f, tracks)

/-- main.py:2196-2218: the first place in a chunk where the signature, or as much of it as there
is room for, starts. -/
def aviScan (sig : Bytes) : Bytes → Option Nat
  | [] => none
  | b :: t =>
    if sig.head? = some b ∧ ((b :: t).take sig.length).isPrefixOf sig = true then some 0
    else (aviScan sig t).map (· + 1)

/-- riff.py:267-269: reading the contents once more seeks back first; a chunk that was cut short
then gives the end of the file. -/
def riffReread (file : Bytes) (it : RiffItem) : Res Bytes :=
  if it.data.length = it.chunk.size then .ok it.data
  else if file.length < it.chunk.size then .error .envError
  else .ok (file.drop (file.length - it.chunk.size))

/-- main.py:2159-2230 `_avi_normal_chunk_find`, for stream chunks. -/
def aviFindMovi (file : Bytes) (tracks : Tracks) (it : RiffItem) : Res (Tracks × Bool) := do
  let n := it.chunk.stream
  let t := tracks.getNew n
  if t.matchOffset = 0 ∨ t.checkBytes.length < t.sig.length then
    if t.sig ≠ [] then do
      let going : Bool := 0 < t.checkBytes.length ∧ t.checkBytes.length < t.sig.length
      let t1 := if going then
          let cb := t.checkBytes ++
            it.data.take (min t.sig.length (it.chunk.size + t.checkBytes.length) - t.checkBytes.length)
          if cb.isPrefixOf t.sig then { t with checkBytes := cb }
          else { t with checkBytes := [], matchOffset := 0, matchLength := 0 }
        else t
      if t1.checkBytes = [] then do
        let data ← (if going then riffReread file it else .ok it.data : Res Bytes)
        match aviScan t.sig data with
        | some i =>
          return (tracks.put n { t1 with checkBytes := (data.drop i).take t.sig.length, matchOffset := it.chunk.start + it.chunk.header.length + i,
                                         matchLength := min t.dataLength (data.length - i) }, true)
        | none => return (tracks.put n t1, true)
      else return (tracks.put n t1, true)
    else
      return (tracks.put n { t with matchLength := min (t.dataLength - t.matchLength) it.chunk.size }, true)
  else if t.matchLength < t.dataLength then
    let tracks := tracks.put n { t with matchLength := t.matchLength + min (t.dataLength - t.matchLength) it.chunk.size }
    return (tracks, tracks.any fun x => decide (x.2.matchLength < x.2.dataLength))
  else return (tracks.put n t, true)

/-- main.py:2138-2157 `avi_find_sample_streams`. -/
def aviFind (tracks : Tracks) (main : Bytes) : Res Tracks :=
  riffWalk .avi (fun _ => true) true main
    (fun ts it => if it.chunk.kind = .movi then aviFindMovi main ts it else .ok (ts, true)) tracks

/-- The files of the tracks (`track_file`), by number; `None` at first. -/
abbrev TrackFiles := Nat → Option Bytes

def TrackFiles.set (f : TrackFiles) (n : Nat) (b : Bytes) : TrackFiles := fun k => if k = n then some b else f k

/-- riff.py:124-129 `_is_valid_chunk_location`. -/
def validLocation (file : Bytes) (pos : Nat) : Bool := validFourcc (readAt file pos 4)

/-- riff.py:139-151: find the index: position of "movi" and the contents of "idx1". -/
def riffIndexItem (s : Nat × Bytes) (it : RiffItem) : Res ((Nat × Bytes) × Bool) :=
  if it.chunk.fourcc = cAvi then
    if it.chunk.kind = .list then .ok (s, true) else .error .assertError
  else if it.chunk.fourcc = cMovi then .ok ((it.chunk.start, s.2), true)
  else if it.chunk.kind = .index then .ok ((s.1, it.data), false)
  else .ok (s, true)

/-- riff.py:159-165: the offsets in the index, up to the first that is not before `matchOffset`. -/
def indexOffsets (matchOffset : Nat) : Nat → Bytes → Nat → Res (List Nat)
  | 0, _, _ => .ok []
  | fuel + 1, idx, offset =>
    if offset < matchOffset ∧ 16 ≤ idx.length then do
      let o ← unpackAt 4 idx 8
      let l ← indexOffsets matchOffset fuel (idx.drop 16) o
      return o :: l
    else .ok []

/-- riff.py:131-185 `_find_chunk_offset`. -/
def findChunkOffset (file : Bytes) (matchOffset : Nat) : Res Nat := do
  let (movi, idx) ← riffWalk .avi (fun c => c.fourcc == cAvi) false file riffIndexItem (0, [])
  if movi ≠ 0 ∧ idx ≠ [] then do
    let offs ← indexOffsets matchOffset (idx.length + 1) idx 0
    match offs.reverse.find? (fun o => decide (movi + 8 + o < matchOffset)) with
    | some o =>
      if validLocation file (movi + 8 + o) then return movi + 8 + o
      else
        match offs.reverse.find? (fun o => decide (o < matchOffset)) with
        | some o => return if validLocation file o then o else 0
        | none => return 0
    | none =>
      match offs.reverse.find? (fun o => decide (o < matchOffset)) with
      | some o => return if validLocation file o then o else 0
      | none => return 0
  else return 0

/-- riff.py:98-122: where reading starts for a match offset. -/
def riffStart (file : Bytes) (matchOffset : Nat) : Res Nat :=
  if matchOffset ≥ 8 ∧ matchOffset < file.length then
    if validLocation file (matchOffset - 8) then .ok (matchOffset - 8)
    else do
      let o ← findChunkOffset file matchOffset
      if o < matchOffset then return o else throw .assertError
  else if matchOffset ≥ file.length then .error .other      -- InvalidMatchOffset
  else .ok 0

/-- main.py:3029-3070 `_avi_normal_chunk_extract`, for stream chunks. -/
def aviExtractMovi (s : Tracks × TrackFiles) (it : RiffItem) : (Tracks × TrackFiles) × Bool :=
  let n := it.chunk.stream
  let t := s.1.getNew n
  let tracks := if s.1.any (·.1 == n) then s.1 else s.1.put n t
  let dataPos : Int := it.chunk.start + it.chunk.header.length
  if dataPos + it.chunk.size > t.matchOffset then
    let f := (s.2 n).getD []
    let f := if f.length < t.dataLength then
        if dataPos ≥ t.matchOffset then f ++ it.data
        else f ++ it.data.drop (t.matchOffset - dataPos).toNat
      else f
    let files := s.2.set n f
    ((tracks, files), tracks.any fun x =>
      match files x.1 with
      | none => true
      | some b => decide (b.length < x.2.dataLength))
  else ((tracks, s.2), true)

/-- main.py:3002-3027 `avi_extract_sample_streams`. -/
def aviExtract (tracks : Tracks) (main : Bytes) : Res (Tracks × TrackFiles) := do
  let start := tracks.foldl (fun m t => if t.2.matchOffset > 0 then min t.2.matchOffset.toNat m else m) (2 ^ 63)
  let pos ← riffStart main start
  riffLoop .avi (fun _ => true) true main
    (fun s it => if it.chunk.kind = .movi then .ok (aviExtractMovi s it) else .ok (s, true))
    (main.length + 1) pos (tracks, fun _ => none)

structure AviRebuild where
  out : Bytes
  crc : BitVec 32
  files : TrackFiles

/-- main.py:3415-3446: one turn of the loop of `avi_rebuild_sample`. -/
def aviRebuildItem (tracks : Tracks) (s : AviRebuild) (it : RiffItem) : Res (AviRebuild × Bool) :=
  if it.chunk.fourcc = mSRSF ∨ it.chunk.fourcc = mSRST then .ok (s, true)
  else
    let out := s.out ++ it.chunk.header
    let crc := crc32 it.chunk.header s.crc
    if it.chunk.kind = .list then .ok (⟨out, crc, s.files⟩, true)
    else do
      let (buff, files) ← (if it.chunk.kind = .movi then
          let n := it.chunk.stream
          if tracks.any (·.1 == n) then
            match s.files n with
            | some rest => .ok (rest.take it.chunk.size, s.files.set n (rest.drop it.chunk.size))
            | none => .error .attrError
          else .error .keyError
        else .ok (it.data, s.files) : Res (Bytes × TrackFiles))
      let out := out ++ buff
      let crc := crc32 buff crc
      match it.pad with
      | some b => return (⟨out ++ [b], crc32 [b] crc, files⟩, true)
      | none => return (⟨out, crc, files⟩, true)

/-- main.py:3404-3457 `avi_rebuild_sample`: contents and CRC of the result.  Every track needs a
file (main.py:3409-3410). -/
def aviRebuild (srs : Bytes) (tracks : Tracks) (files : TrackFiles) : Res (Bytes × BitVec 32) :=
  if tracks.any (fun t => (files t.1).isNone) then .error .attrError
  else do
    let s ← riffWalk .srs (fun c => !(c.fourcc == mSRSF || c.fourcc == mSRST)) false srs (aviRebuildItem tracks) ⟨[], 0, files⟩
    return (s.out, s.crc)

/-- srs.py:463-470, 139-146: a track was not located.  0 means that for video. -/
def videoUnlocated (tracks : Tracks) : Bool := tracks.any fun t => t.2.sig ≠ [] && t.2.matchOffset == 0

/-- srs.py:294-378: create the SRS of an AVI sample.  `check` is the main file given with `-c`. -/
def srsAviCreate (app name : Str) (sample : Bytes) (bigFile : Bool) (check : Option Bytes) : Res Bytes :=
  if sample.length ≥ 0x80000000 ∧ bigFile = false then .error .other
  else do
    let (crc, tracks) ← aviProfile sample
    if tracks = [] then throw .other
    else do
      let tracks ← (match check with
        | none => .ok tracks
        | some main => do
          let tr ← aviFind tracks main
          if videoUnlocated tr then throw .other
          else return tr.filter (fun t => t.2.sig ≠ []) : Res Tracks)
      aviCreateSrs app name sample.length crc.toNat tracks bigFile sample

/-- srs.py:438-516, 586: rebuild an AVI sample from its SRS and a main file. -/
def srsAviReconstruct (srs main : Bytes) (ignoreOffset : Bool) : Res SrsResult := do
  let (f, tracks) ← aviLoadSrs srs
  let tracks ← (if ignoreOffset = true ∨ tracks.any (fun t => t.2.matchOffset == 0) = true then do
      let tr ← aviFind tracks main
      if videoUnlocated tr then throw .other   -- exit status 3
      else return tr
    else .ok tracks : Res Tracks)
  let (tracks, files) ← aviExtract tracks main
  if tracks.any (fun t => t.2.sig ≠ [] && (match files t.1 with
      | none => true
      | some b => decide (b.length < t.2.dataLength))) then throw .other   -- exit status 4
  else do
    let (out, crc) ← aviRebuild srs tracks files
    return ⟨out, f.size, f.crc, crc.toNat == f.crc⟩

end Rescene
