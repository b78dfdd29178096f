import Verif.Model.Riff
/-
MP4 samples: /repo/resample/mov.py and the `mp4_*` functions of /repo/resample/main.py.  A main
file inside RAR volumes is the unpacked stream.
-/
namespace Rescene

/-- mov.py:40-42. -/
inductive MovMode
  | mp4 | sample | srs
  deriving DecidableEq, Repr

/-- mov.py:47-54. -/
structure MovAtom where
  size : Nat
  type : Bytes
  header : Bytes
  start : Nat
  deriving DecidableEq, Repr

def aMdat : Bytes := [0x6D, 0x64, 0x61, 0x74]
def aMoov : Bytes := [0x6D, 0x6F, 0x6F, 0x76]
def aTrak : Bytes := [0x74, 0x72, 0x61, 0x6B]
def aMdia : Bytes := [0x6D, 0x64, 0x69, 0x61]
def aMinf : Bytes := [0x6D, 0x69, 0x6E, 0x66]
def aStbl : Bytes := [0x73, 0x74, 0x62, 0x6C]
def aTkhd : Bytes := [0x74, 0x6B, 0x68, 0x64]
def aStco : Bytes := [0x73, 0x74, 0x63, 0x6F]
def aCo64 : Bytes := [0x63, 0x6F, 0x36, 0x34]
def aStsc : Bytes := [0x73, 0x74, 0x73, 0x63]
def aStsz : Bytes := [0x73, 0x74, 0x73, 0x7A]
def aStz2 : Bytes := [0x73, 0x74, 0x7A, 0x32]
def aNull : Bytes := [0, 0, 0, 0]

/-- mov.py:84-142 `read`: `none` when there is no room for an atom.  The assertion at the start
holds in all uses; afterwards the position is that of the atom again. -/
def movRead (mode : MovMode) (file : Bytes) (pos : Nat) : Res (Option MovAtom) :=
  if pos + 8 > file.length then .ok none
  else do
    let h := readAt file pos 8
    let len ← unpackBeAt 4 h 0
    let type := h.drop 4
    let (size, header) ← (if len = 1 then do
          let b := readAt file (pos + 8) 8
          let n ← unpackBeAt 8 b 0
          return (n, h ++ b)
        else if len = 0 then
          if type = aNull then .ok (8, h) else .ok (file.length - pos, h)
        else .ok (len, h) : Res (Nat × Bytes))
    if mode = .sample ∧ type ≠ aMdat ∧ pos + size > file.length then throw .invalidData
    else return some ⟨size, type, header, pos⟩

/-- What a caller does with an atom: `move_to_child`, `read_contents`, `read_contents_chunks` or
`skip_contents`. -/
inductive MovHow
  | child | read | chunks | skip
  deriving DecidableEq, Repr

/-- mov.py:144-201: the contents, and the position after it.  Sizes below that of the header
make the amount negative: -1 reads everything, other ones are a `ValueError`.  `skip_contents` of
"mdat" in an SRS, which does nothing, and `read_contents` of it are not used. -/
def movContents (how : MovHow) (file : Bytes) (a : MovAtom) : Res (Bytes × Nat) :=
  let p := a.start + a.header.length
  match how with
  | .child => .ok ([], p)
  | .skip => if a.start + a.size < 2 ^ 63 then .ok ([], a.start + a.size) else .error .overflowError
  | .read =>
    if a.size + 1 = a.header.length then .ok (file.drop p, p + (file.drop p).length)
    else if a.size < a.header.length then .error .valueError
    else if a.size - a.header.length < 2 ^ 63 then
      let d := readAt file p (a.size - a.header.length)
      .ok (d, p + d.length)
    else .error .overflowError
  | .chunks =>
    if a.size + 1 = a.header.length then .ok (file.drop p, p + (file.drop p).length)
    else if a.size < a.header.length then .error .valueError
    else
      let d := readAt file p (a.size - a.header.length)
      .ok (d, p + d.length)

/-- One atom: what a caller sees of it. -/
structure MovItem where
  atom : MovAtom
  data : Bytes
  deriving DecidableEq, Repr

/-- The loops over all atoms.  A step budget of one step per byte is enough unless the program
does not end (`mp4_loops_end_partial` and `mp4_find_does_not_end` in Props/MovEnds.lean). -/
def movLoop {σ : Type} (mode : MovMode) (how : Bytes → MovHow) (file : Bytes) (f : σ → MovItem → Res σ) :
    Nat → Nat → σ → Res σ
  | 0, _, _ => .error .fuel
  | fuel + 1, pos, s => do
    match ← movRead mode file pos with
    | none => return s
    | some a => do
      let (data, q) ← movContents (how a.type) file a
      let s ← f s ⟨a, data⟩
      movLoop mode how file f fuel q s

def movWalk {σ : Type} (mode : MovMode) (how : Bytes → MovHow) (file : Bytes) (f : σ → MovItem → Res σ) (s : σ) : Res σ :=
  movLoop mode how file f (file.length + 1) 0 s

/-- The tables of a track: offsets of its chunks; for each chunk its number and how many samples
it has, which can be `None` (the description index is never used); the sizes of the samples. -/
structure MovTables where
  offsets : List Nat := []
  lens : List (Nat × Option Nat) := []
  sizes : List Nat := []
  deriving DecidableEq, Repr

/-- `for i in range(n)`: `n` big-endian numbers of `k` bytes from `j` on. -/
def beTable (k : Nat) (data : Bytes) : Nat → Nat → Res (List Nat)
  | 0, _ => .ok []
  | n + 1, j => do
    let x ← unpackBeAt k data j
    let l ← beTable k data n (j + k)
    return x :: l

/-- `struct.unpack_from(">LLL", data, j)` in a loop. -/
def stscTable (data : Bytes) : Nat → Nat → Res (List (Nat × Option Nat))
  | 0, _ => .ok []
  | n + 1, j =>
    if j + 12 ≤ data.length then do
      let x ← unpackBeAt 4 data j
      let y ← unpackBeAt 4 data (j + 4)
      let l ← stscTable data n (j + 12)
      return (x, some y) :: l
    else .error .structError

/-- main.py:1321-1340 `stsc`: the loop. -/
def stscGo : Nat → Option Nat → List (Nat × Option Nat) → List (Nat × Option Nat)
  | _, _, [] => []
  | index, prev, (first, n) :: rest =>
    (List.range' index (first - index)).map (fun i => (i, prev)) ++
      (first, n) :: stscGo (max index first + 1) n rest

/-- main.py:1321-1340 `stsc`. -/
def stscExpand (l : List (Nat × Option Nat)) : List (Nat × Option Nat) := stscGo 1 none l

/-- main.py:1258-1294 and 3628-3659: the atoms with tables; `cur` are the tables of the current
track, `None` before the first one. -/
def movTable (cur : Option MovTables) (type data : Bytes) : Res (Option MovTables) :=
  if type = aStco ∨ type = aCo64 then
    match cur with
    | none => .error .assertError
    | some t => do
      let n ← unpackBeAt 4 data 4
      let l ← beTable (if type = aStco then 4 else 8) data n 8
      return some { t with offsets := t.offsets ++ l }
  else if type = aStsc then do
    let n ← unpackBeAt 4 data 4
    let l ← stscTable data (if cur.isNone then min n 1 else n) 8
    match cur with
    | none => throw .attrError
    | some t => do
      return some { t with lens := stscExpand (t.lens ++ l) }
  else if type = aStsz ∨ type = aStz2 then do
    let size ← unpackBeAt 4 data 4
    let n ← unpackBeAt 4 data 8
    if size = 0 then
      match cur with
      | none => if n = 0 then return none else do
          let _ ← unpackBeAt 4 data 12
          throw .attrError
      | some t => do
        let l ← beTable 4 data n 12
        return some { t with sizes := t.sizes ++ l }
    else
      match cur with
      | none => if n = 0 then return none else throw .attrError
      | some t => return some { t with sizes := t.sizes ++ List.replicate n size }
  else .ok cur

/-- main.py:1402-1408, 2465-2471: how many samples the chunk with this index has.  A missing
entry is the last one; without entries that is an `IndexError`, and `None` makes the slices that
follow a `TypeError`. -/
def samplesIn (lens : List (Nat × Option Nat)) (i : Nat) : Res Nat :=
  match (match lens[i]? with
    | some e => some e
    | none => lens.getLast?) with
  | none => .error .indexError
  | some (_, none) => .error .typeError
  | some (_, some n) => .ok n

/-- `seek(off)` and `read(n)` on an open file. -/
def seekTo (file : Bytes) (off n : Nat) : Res Bytes :=
  if off < 2 ^ 63 ∧ n < 2 ^ 63 then .ok (readAt file off n) else .error .overflowError

/-- main.py:1398-1421: the loop of `mp4_signature_bytes` over the chunk offsets. -/
def movSignature (file : Bytes) (t : MovTables) : List Nat → Nat → Nat → Bytes → Res Bytes
  | [], _, _, sig => .ok sig
  | off :: rest, i, prev, sig => do
    let n ← samplesIn t.lens i
    let size := ((t.sizes.drop prev).take n).sum
    let content ← seekTo file off size
    let sig := sig ++ content.take (min 256 (sig.length + size) - sig.length)
    if sig.length = 256 then return sig
    else movSignature file t rest (i + 1) (prev + n) sig

/-- A track as `profile_mp4` leaves it. -/
structure MovTrack where
  tables : MovTables := {}
  sig : Bytes := []
  dataLength : Nat := 0
  deriving DecidableEq, Repr

/-- The tracks, the number of the current one, and `track_processed`. -/
structure MovState where
  tracks : List (Nat × MovTrack) := []
  current : Option Nat := none
  processed : Bool := false

structure MovProfile where
  crc : BitVec 32 := 0
  other : Nat := 0
  mdat : Nat := 0
  st : MovState := {}

def movGet {α : Type} (l : List (Nat × α)) (n : Nat) : Option α := (l.find? (·.1 == n)).map (·.2)

/-- Change a dict entry that exists. -/
def movSet {α : Type} (l : List (Nat × α)) (n : Nat) (t : α) : List (Nat × α) :=
  l.map fun x => if x.1 = n then (n, t) else x

def movContainer (type : Bytes) : Bool :=
  type == aMoov || type == aTrak || type == aMdia || type == aMinf || type == aStbl

/-- main.py:1244-1294: what an atom means for the tracks. -/
def movTracksStep (s : MovState) (type data : Bytes) : Res MovState :=
  if type = aTkhd then do
    let id ← unpackBeAt 4 data 12
    if (movGet s.tracks id).isSome then throw .assertError
    else return ⟨s.tracks ++ [(id, ({} : MovTrack))], some id, false⟩
  else do
    let cur := s.current.bind (movGet s.tracks)
    let tb ← movTable (cur.map (·.tables)) type data
    match s.current, cur, tb with
    | some id, some t, some tb => return { s with tracks := movSet s.tracks id { t with tables := tb } }
    | _, _, _ => return s

/-- main.py:1296-1308: a track with all tables gets its signature and length. -/
def movFinish (file : Bytes) (s : MovState) : Res MovState :=
  match s.current, s.current.bind (movGet s.tracks) with
  | some id, some t =>
    if s.processed = false ∧ t.tables.offsets ≠ [] ∧ t.tables.lens ≠ [] ∧ t.tables.sizes ≠ [] then do
      let sig ← movSignature file t.tables t.tables.offsets 0 0 []
      return ⟨movSet s.tracks id { t with sig := sig, dataLength := t.tables.sizes.sum }, some id, true⟩
    else return s
  | _, _ => return s

def movStep (file : Bytes) (s : MovState) (l : Bytes × Bytes) : Res MovState := do
  let s ← movTracksStep s l.1 l.2
  movFinish file s

/-- main.py:1216-1308: one turn of the loop of `profile_mp4`. -/
def movProfileItem (file : Bytes) (s : MovProfile) (it : MovItem) : Res MovProfile := do
  let s := { s with other := s.other + it.atom.header.length, crc := crc32 it.atom.header s.crc }
  let s := if movContainer it.atom.type then s
    else if it.atom.type = aMdat then { s with mdat := s.mdat + it.atom.size, crc := crc32 it.data s.crc }
    else { s with other := s.other + it.data.length, crc := crc32 it.data s.crc }
  let st ← movStep file s.st (it.atom.type, it.data)
  return { s with st := st }

/-- main.py:1201-1319 `profile_mp4`; `crc` is `calculate_crc32`. -/
def movProfile (crc : Bool) (file : Bytes) : Res MovProfile :=
  movWalk .sample (fun ty => if movContainer ty then .child else if ty = aMdat then (if crc then .chunks else .skip) else .read)
    file (movProfileItem file) {}

/-- main.py:1342-1390 `mp4_profile_sample`: CRC and tracks. -/
def mp4Profile (file : Bytes) : Res (BitVec 32 × Tracks) := do
  let s ← movProfile true file
  let total := s.other + (s.st.tracks.map (·.2.dataLength)).sum
  let total := if total < file.length ∧ total < 100 then total + s.mdat else total
  if file.length ≠ total then throw .incompleteSample
  else return (s.crc, s.st.tracks.map fun x => (x.1, { number := x.1, dataLength := x.2.dataLength, sig := x.2.sig }))

/-- main.py:337-342 and 483-488 `serialize_as_mov`. -/
def movBlock (marker data : Bytes) : Res Bytes := do
  let n ← packBe 4 (data.length + 8)
  return n ++ (marker ++ data)

/-- main.py:1971-1980: our atoms. -/
def mp4SrsAtoms (app name : Str) (size crc : Nat) (tracks : Tracks) (bigFile : Bool) : Res Bytes := do
  let f ← fileSerialize app 3 name size crc
  let fb ← movBlock mSRSF f
  let tb ← tracks.mapM fun (_, t) => do
    let t := if bigFile then { t with flags := t.flags ||| 4 } else t
    let d ← trackSerialize t
    movBlock mSRST d
  return fb ++ tb.flatten

/-- main.py:1967-1989: one turn of the loop of `mp4_create_srs`. -/
def mp4CreateItem (own : Res Bytes) (out : Bytes) (it : MovItem) : Res Bytes :=
  if it.atom.type = aMdat then do
    let b ← own
    return out ++ (b ++ it.atom.header)
  else .ok (out ++ (it.atom.header ++ it.data))

/-- main.py:1964-1990 `mp4_create_srs`: the bytes of the SRS. -/
def mp4CreateSrs (app name : Str) (size crc : Nat) (tracks : Tracks) (bigFile : Bool) (sample : Bytes) : Res Bytes :=
  movWalk .mp4 (fun ty => if ty = aMdat then .skip else .read) sample
    (mp4CreateItem (mp4SrsAtoms app name size crc tracks bigFile)) []

/-- main.py:808-817: one turn of the loop of `mp4_load_srs`. -/
def mp4LoadItem (s : Option FileData × Tracks) (it : MovItem) : Res (Option FileData × Tracks) :=
  if it.atom.type = mSRSF then do
    let f ← fileParse it.data
    return (some f, s.2)
  else if it.atom.type = mSRST then do
    let t ← trackParse it.data
    return (s.1, s.2.put t.number t)
  else .ok s

/-- main.py:805-819 `mp4_load_srs`. -/
def mp4LoadSrs (file : Bytes) : Res (FileData × Tracks) := do
  let (f, tracks) ← movWalk .srs (fun ty => if ty = mSRSF ∨ ty = mSRST then .read else if ty = aMdat then .child else .skip)
    file mp4LoadItem (none, [])
  match f with
  | none => throw .unboundLocal
  | some f => return (f, tracks)

/-- main.py:2561-2593: a chunk of a track: offset and sizes of the samples. -/
structure MovChunk where
  off : Nat
  samples : List Nat
  deriving DecidableEq, Repr

/-- main.py:2459-2486 `mp4_add_track_stream`: the loop over the chunk offsets. -/
def movChunks (t : MovTables) : List Nat → Nat → Nat → Res (List MovChunk)
  | [], _, _ => .ok []
  | off :: rest, i, prev => do
    let n ← samplesIn t.lens i
    let l ← movChunks t rest (i + 1) (prev + n)
    return ⟨off, (t.sizes.drop prev).take n⟩ :: l

/-- main.py:2521-2541: the reads from the next chunks until there are `amount` bytes. -/
def streamMore (file : Bytes) (amount : Nat) : List MovChunk → Bytes → Res Bytes
  | [], got => .ok got
  | c :: rest, got =>
    if got.length < amount then do
      let d ← seekTo file c.off (min (amount - got.length) c.samples.sum)
      streamMore file amount rest (got ++ d)
    else .ok got

/-- main.py:2515-2541 `TrackStream.read`, where `left` are the samples that are left of the current
chunk, `off` the current offset and `next` the chunks that follow. -/
def streamRead (file : Bytes) (off : Nat) (left : List Nat) (next : List MovChunk) (amount : Nat) : Res Bytes :=
  if left.sum > amount then seekTo file off amount
  else do
    let first ← seekTo file off left.sum
    streamMore file amount next first

/-- main.py:2449-2455: the samples of one chunk are tried from `off` on. -/
def findInChunk (file sig : Bytes) (next : List MovChunk) : Nat → List Nat → Res (Option Nat)
  | off, [] => do
    let d ← streamRead file off [] next sig.length
    return if d = sig then some off else none
  | off, s :: left => do
    let d ← streamRead file off (s :: left) next sig.length
    if d = sig then return some off
    else match left with
      | [] => return none
      | _ :: _ => findInChunk file sig next (off + s) left

/-- main.py:2440-2455: all samples are tried.  At the end `read` starts again with the first chunk,
once, which was tried before. -/
def findInChunks (file sig : Bytes) : List MovChunk → Res (Option Nat)
  | [] => .ok none
  | c :: rest => do
    match ← findInChunk file sig rest c.off c.samples with
    | some o => return some o
    | none => findInChunks file sig rest

/-- main.py:2432-2457 `mp4_find_sample_stream`: the match offset, if there is a match.  A track
without chunks is an `IndexError`. -/
def mp4FindTrack (file sig : Bytes) (t : MovTables) : Res (Option Nat) := do
  let chunks ← movChunks t t.offsets 0 0
  if chunks = [] then throw .indexError
  else findInChunks file sig chunks

/-- main.py:2601-2612: the loop over the tracks of the main file. -/
def mp4FindLoop (main : Bytes) : List (Nat × MovTrack) → Tracks → Res Tracks
  | [], tracks => .ok tracks
  | (n, m) :: rest, tracks =>
    match movGet tracks n with
    | none => mp4FindLoop main rest tracks
    | some t => do
      let o ← mp4FindTrack main t.sig m.tables
      mp4FindLoop main rest (match o with
        | some o => movSet tracks n { t with matchOffset := o }
        | none => tracks)

/-- main.py:2595-2613 `mp4_find_sample_streams`. -/
def mp4Find (tracks : Tracks) (main : Bytes) : Res Tracks := do
  let m ← movProfile false main
  mp4FindLoop main m.st.tracks tracks

/-- main.py:2580-2593 `get_sample_nb`: the samples that are left. -/
def samplesFrom (offset : Nat) : Nat → List Nat → Res (List Nat)
  | _, [] => .ok []
  | pos, s :: rest =>
    if offset ≤ pos then
      if offset ≠ pos then .error .valueError else .ok (s :: rest)
    else samplesFrom offset (pos + s) rest

/-- main.py:2504-2513 `TrackStream.seek`: the last chunk that does not start behind the offset, and
the chunks that follow. -/
def seekChunks (offset : Nat) : List MovChunk → Option (MovChunk × List MovChunk)
  | [] => none
  | c :: rest =>
    match seekChunks offset rest with
    | some r => some r
    | none => if c.off ≤ offset then some (c, rest) else none

/-- main.py:3251-3262 `mp4_extract_sample_stream`: the contents of the track file.  Match offsets are
never negative here. -/
def mp4ExtractTrack (main : Bytes) (t : TrackData) (m : MovTables) : Res Bytes := do
  let chunks ← movChunks m m.offsets 0 0
  match seekChunks t.matchOffset.toNat chunks with
  | none => throw .assertError
  | some (c, rest) => do
    let left ← samplesFrom t.matchOffset.toNat c.off c.samples
    streamRead main t.matchOffset.toNat left rest t.dataLength

/-- main.py:3238-3241: the loop over the tracks. -/
def mp4ExtractLoop (main : Bytes) (mtracks : List (Nat × MovTrack)) : Tracks → TrackFiles → Res TrackFiles
  | [], files => .ok files
  | (n, t) :: rest, files =>
    match movGet mtracks n with
    | none => .error .keyError
    | some m => do
      let d ← mp4ExtractTrack main t m.tables
      mp4ExtractLoop main mtracks rest (files.set n d)

/-- main.py:3233-3243 `mp4_extract_sample_streams`. -/
def mp4Extract (tracks : Tracks) (main : Bytes) : Res TrackFiles := do
  let m ← movProfile false main
  mp4ExtractLoop main m.st.tracks tracks (fun _ => none)

/-- main.py:3591-3664 `profile_mp4_srs`: the tables of the tracks by number, and the current track.
`ids` are the numbers of the tracks. -/
def mp4SrsTablesItem (ids : List Nat) (s : (Nat → Option MovTables) × Option Nat) (it : MovItem) :
    Res ((Nat → Option MovTables) × Option Nat) :=
  if it.atom.type = aTkhd then do
    let id ← unpackBeAt 4 it.data 12
    if id ∈ ids then return (fun k => if k = id then some {} else s.1 k, some id)
    else throw .keyError
  else do
    let tb ← movTable (s.2.bind s.1) it.atom.type it.data
    match s.2, tb with
    | some id, some tb => return (fun k => if k = id then some tb else s.1 k, some id)
    | _, _ => return s

def mp4SrsTables (ids : List Nat) (srs : Bytes) : Res (Nat → Option MovTables) := do
  let s ← movWalk .srs (fun ty => if movContainer ty ∨ ty = aMdat then .child else .read) srs
    (mp4SrsTablesItem ids) (fun _ => none, none)
  return s.1

/-- Python's `sorted` by offset, which is stable: chunks with the same offset keep their order. -/
def insertChunk (c : Nat × Nat × Nat) : List (Nat × Nat × Nat) → List (Nat × Nat × Nat)
  | [] => [c]
  | d :: l => if c.1 ≤ d.1 then c :: d :: l else d :: insertChunk c l

def sortChunks (l : List (Nat × Nat × Nat)) : List (Nat × Nat × Nat) := l.foldr insertChunk []

/-- main.py:3582-3589 `order_chunks`: offset, size and track of the chunks. -/
def orderChunks (l : List (Nat × List MovChunk)) : List (Nat × Nat × Nat) :=
  sortChunks (l.flatMap fun x => x.2.map fun c => (c.off, c.samples.sum, x.1))

structure MovRebuild where
  out : Bytes
  crc : BitVec 32
  files : TrackFiles

/-- main.py:3566-3571: the stream data.  (A chunk of 2^63 bytes or more, which needs tables that do not
fit into memory, would be an `OverflowError`.) -/
def writeChunks4 (s : MovRebuild) (c : Nat × Nat × Nat) : MovRebuild :=
  let rest := (s.files c.2.2).getD []
  let buff := rest.take c.2.1
  ⟨s.out ++ buff, crc32 buff s.crc, s.files.set c.2.2 (rest.drop c.2.1)⟩

/-- main.py:3552-3577: one turn of the loop of `mp4_rebuild_sample`. -/
def mp4RebuildItem (order : List (Nat × Nat × Nat)) (s : MovRebuild) (it : MovItem) : Res MovRebuild :=
  if it.atom.type = mSRSF ∨ it.atom.type = mSRST then .ok s
  else
    let s := { s with out := s.out ++ it.atom.header, crc := crc32 it.atom.header s.crc }
    if it.atom.type = aMdat then .ok (order.foldl writeChunks4 s)
    else .ok { s with out := s.out ++ it.data, crc := crc32 it.data s.crc }

/-- main.py:3544-3546: the track streams. -/
def mp4Streams (tables : Nat → Option MovTables) (files : TrackFiles) : Tracks → Res (List (Nat × List MovChunk))
  | [] => .ok []
  | (n, _) :: rest =>
    if (files n).isNone then .error .attrError
    else
      match tables n with
      | none => .error .attrError
      | some t => do
        let c ← movChunks t t.offsets 0 0
        let l ← mp4Streams tables files rest
        return (n, c) :: l

/-- main.py:3540-3580 `mp4_rebuild_sample`: contents and CRC of the result. -/
def mp4Rebuild (srs : Bytes) (tracks : Tracks) (files : TrackFiles) : Res (Bytes × BitVec 32) := do
  let tables ← mp4SrsTables (tracks.map (·.1)) srs
  let streams ← mp4Streams tables files tracks
  let s ← movWalk .srs (fun ty => if ty = mSRSF ∨ ty = mSRST then .skip else if ty = aMdat then .child else .read)
    srs (mp4RebuildItem (orderChunks streams)) ⟨[], 0, files⟩
  return (s.out, s.crc)

/-- srs.py:294-378: create the SRS of an MP4 sample.  `check` is the main file given with `-c`. -/
def srsMp4Create (app name : Str) (sample : Bytes) (bigFile : Bool) (check : Option Bytes) : Res Bytes :=
  if sample.length ≥ 0x80000000 ∧ bigFile = false then .error .other
  else do
    let (crc, tracks) ← mp4Profile sample
    if tracks = [] then throw .other
    else do
      let tracks ← (match check with
        | none => .ok tracks
        | some main => do
          let tr ← mp4Find tracks main
          if videoUnlocated tr then throw .other
          else return tr.filter (fun t => t.2.sig ≠ []) : Res Tracks)
      mp4CreateSrs app name sample.length crc.toNat tracks bigFile sample

/-- srs.py:438-516, 586: rebuild an MP4 sample from its SRS and a main file. -/
def srsMp4Reconstruct (srs main : Bytes) (ignoreOffset : Bool) : Res SrsResult := do
  let (f, tracks) ← mp4LoadSrs srs
  let tracks ← (if ignoreOffset = true ∨ tracks.any (fun t => t.2.matchOffset == 0) = true then do
      let tr ← mp4Find tracks main
      if videoUnlocated tr then throw .other   -- exit status 3
      else return tr
    else .ok tracks : Res Tracks)
  let files ← mp4Extract tracks main
  if tracks.any (fun t => t.2.sig ≠ [] && (match files t.1 with
      | none => true
      | some b => decide (b.length < t.2.dataLength))) then throw .other   -- exit status 4
  else do
    let (out, crc) ← mp4Rebuild srs tracks files
    return ⟨out, f.size, f.crc, crc.toNat == f.crc⟩

end Rescene
