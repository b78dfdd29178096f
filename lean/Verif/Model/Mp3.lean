import Verif.Model.Ebml
import Verif.Model.StreamSrs
import Verif.Model.Flac
/-
MP3 music samples: /repo/resample/mp3.py and the `mp3_*` functions of
/repo/resample/main.py, with the parts of /repo/resample/srs.py that call them.  Files are
byte lists; a main file inside RAR volumes is the unpacked stream (`RarStream`).
Positions and sizes are integers: sizes read from tags can point before the start of the file.
-/
namespace Rescene

/-- mp3.py:66-74 `Block.type`: "ID3", "TAG", "LYRICS200", "LYRICS", "APE" with a version, "MP3",
or the marker of a block in an SRS. -/
inductive Mp3Type where
  | id3 | tag | lyrics200 | lyrics
  | ape (version : Nat)
  | mp3
  | srs (marker : Bytes)
  deriving DecidableEq, Repr

/-- mp3.py:66-70 `Block`. -/
structure Mp3Block where
  size : Int
  ty : Mp3Type
  start : Int
  deriving DecidableEq, Repr

/-- `b"LYRICS200"`, `b"LYRICSEND"`, `b"LYRICSBEGIN"`, `b"APETAGEX"`, `b"RIFF"`, `b"SRSP"`, `b"SRS"`. -/
def mLYRICS200 : Bytes := [0x4C, 0x59, 0x52, 0x49, 0x43, 0x53, 0x32, 0x30, 0x30]
def mLYRICSEND : Bytes := [0x4C, 0x59, 0x52, 0x49, 0x43, 0x53, 0x45, 0x4E, 0x44]
def mLYRICSBEGIN : Bytes := [0x4C, 0x59, 0x52, 0x49, 0x43, 0x53, 0x42, 0x45, 0x47, 0x49, 0x4E]
def mAPETAGEX : Bytes := [0x41, 0x50, 0x45, 0x54, 0x41, 0x47, 0x45, 0x58]
def mRIFF : Bytes := [0x52, 0x49, 0x46, 0x46]
def mSRSP : Bytes := [0x53, 0x52, 0x53, 0x50]
def mSRS : Bytes := [0x53, 0x52, 0x53]

/-- `stream.seek(pos); stream.read(n)`: seeking to before the start is an `OSError`, reading -1
bytes reads everything that is left, other negative amounts are a `ValueError` (Python 3). -/
def seekRead (file : Bytes) (pos n : Int) : Res Bytes :=
  if pos < 0 then .error .envError
  else if n < -1 then .error .valueError
  else if n < 0 then .ok (file.drop pos.toNat)
  else .ok (readAt file pos.toNat n.toNat)

/-- ASCII whitespace as `int()` strips it. -/
def isWs (b : UInt8) : Bool := (9 ≤ b && b ≤ 13) || b == 32

/-- ASCII digit. -/
def isDig (b : UInt8) : Bool := 48 ≤ b && b ≤ 57

/-- The digits after the first one, with single underscores between digits (Python 3.6+). -/
def intDigits : Nat → Bytes → Option Nat
  | acc, [] => some acc
  | acc, d :: rest =>
    if isDig d then intDigits (10 * acc + (d.toNat - 48)) rest
    else if d = 95 then
      match rest with
      | [] => none
      | d' :: rest' => if isDig d' then intDigits (10 * acc + (d'.toNat - 48)) rest' else none
    else none

/-- An unsigned number. -/
def intUnsigned : Bytes → Option Nat
  | [] => none
  | d :: rest => if isDig d then intDigits (d.toNat - 48) rest else none

/-- `int(b)` for bytes: whitespace around, an optional sign, digits; else `ValueError`. -/
def pyInt (b : Bytes) : Res Int :=
  let s := ((b.dropWhile isWs).reverse.dropWhile isWs).reverse
  match (match s with
    | 43 :: r => (intUnsigned r).map Int.ofNat
    | 45 :: r => (intUnsigned r).map fun n => - Int.ofNat n
    | r => (intUnsigned r).map Int.ofNat) with
  | some n => .ok n
  | none => .error .valueError

/-- mp3.py:107-124: the ID3v2 tags at the start, with a step budget: the blocks and the
position after them. -/
def mp3Id3s (file : Bytes) : Nat → Nat → Res (List Mp3Block × Nat)
  | 0, _ => .error .fuel
  | fuel + 1, pos =>
    if readAt file pos 3 = mID3 then do
      let size ← decodeId3Size (readAt file (pos + 6) 4)
      let (l, e) ← mp3Id3s file fuel (pos + (10 + size))
      return (⟨(10 + size : Nat), .id3, pos⟩ :: l, e)
    else .ok ([], pos)

/-- mp3.py:126-134: the ID3v1 tag in the last 128 bytes; the blocks found and the end of what
is before them. -/
def mp3V1 (file : Bytes) : Res (List Mp3Block × Int) :=
  if file.length < 128 then .error .envError
  else if readAt file (file.length - 128) 3 = mTAG then
    .ok ([⟨128, .tag, (file.length - 128 : Nat)⟩], (file.length - 128 : Nat))
  else .ok ([], file.length)

/-- mp3.py:136-150: Lyrics3 version 2. -/
def mp3Lyrics2 (file : Bytes) (e : Int) : Res (List Mp3Block × Int) :=
  if e - 15 ≥ 0 then do
    let footer ← seekRead file (e - 15) 15
    if footer.drop 6 = mLYRICS200 then do
      let n ← pyInt (footer.take 6)
      return ([⟨n + 15, .lyrics200, e - (n + 15)⟩], e - (n + 15))
    else return ([], e)
  else .ok ([], e)

/-- mp3.py:152-166: Lyrics3 version 1. -/
def mp3Lyrics1 (file : Bytes) (e : Int) : Res (List Mp3Block × Int) :=
  if e - 9 ≥ 0 then do
    let footer ← seekRead file (e - 9) 9
    if mLYRICSEND = footer then do
      let d ← seekRead file (e - 5100) 5100
      match bfind mLYRICSBEGIN d with
      | none => throw .invalidData
      | some i =>
        let s := e - 5100 + i
        return ([⟨e - s, .lyrics, s⟩], e - (e - s))
    else return ([], e)
  else .ok ([], e)

/-- mp3.py:168-188: APE tags. -/
def mp3Ape (file : Bytes) (e : Int) : Res (List Mp3Block × Int) :=
  if e - 32 ≥ 0 then do
    let m ← seekRead file (e - 32) 8
    if mAPETAGEX = m then do
      let v ← seekRead file (e - 24) 4
      let version ← unpackAt 4 v 0
      let header : Int := if version = 2000 then 32 else 0
      let z ← seekRead file (e - 20) 4
      let size ← unpackAt 4 z 0
      let s := e - size - header
      return ([⟨e - s, .ape version, s⟩], e - (e - s))
    else return ([], e)
  else .ok ([], e)

/-- `sync & 0xFFE0 == 0xFFE0` for the first two bytes: the 11 bits of an MPEG frame. -/
def isSync : Bytes → Bool
  | a :: b :: _ => a == 0xFF && b &&& 0xE0 == 0xE0
  | _ => false

/-- mp3.py:190-197 `marker_has_issues`. -/
def markerBad (m : Bytes) : Bool :=
  m.length != 4 || (!isSync m && m != mRIFF && m != mSRSF)

/-- mp3.py:324-334: index of the first frame marker, -1 when there is none. -/
def syncFind : Bytes → Int
  | [] => -1
  | b :: rest => if isSync (b :: rest) then 0 else (let k := syncFind rest; if k = -1 then -1 else k + 1)

/-- `hay.find(needle)` as a Python number. -/
def pyFind (needle hay : Bytes) : Int :=
  match bfind needle hay with
  | some i => i
  | none => -1

/-- `hay.rfind(needle)` for a needle that is not empty. -/
def pyRfind (needle hay : Bytes) : Int :=
  match bfind needle.reverse hay.reverse with
  | some i => hay.length - needle.length - i
  | none => -1

/-- mp3.py:308-359 `last_id3v2_before_sync`, with a step budget. -/
def lastId3 (file : Bytes) : Nat → Nat → Int → Int → Int
  | 0, _, last, _ => last
  | fuel + 1, current, last, id3 =>
    if current < file.length then
      let part := readAt file current (0x10000 + 3)
      let sync := max (max (syncFind part) (pyFind mRIFF part)) (pyFind mSRSF part)
      let i := pyRfind mID3 part
      let i := if i > 0 then i + current else i
      let id3 := max i id3
      let last := if id3 > last ∧ sync ≠ -1 ∧ id3 < current + sync then id3 else last
      if sync ≠ -1 then last
      else lastId3 file fuel (current + 0x10000) last id3
    else last

/-- mp3.py:199-238: a wrong or cut first ID3v2 tag: the blocks of the tags and the start of the
main content, after the correction.  `ids` are the tags found, `b` the end of the last one. -/
def mp3Fix (file : Bytes) (ids : List Mp3Block) (b : Nat) : Res (List Mp3Block × Int) :=
  match ids.getLast? with
  | none => .ok (ids, b)
  | some last =>
    if markerBad (readAt file b 4) then
      let l := lastId3 file (file.length + 1) 0 0 0
      if l ≠ last.start then
        if l ≥ last.start + last.size then do
          let sb ← seekRead file (l + 6) 4
          let size ← decodeId3Size sb
          let b' : Int := l + 10 + size
          return (ids.dropLast ++ [{ last with size := b' - last.start }], b')
        else if b > file.length then do
          let sb ← seekRead file (l + 6) 4
          let size ← decodeId3Size sb
          return (ids ++ [⟨(10 + size : Nat), .id3, l⟩], l + (10 + size : Nat))
        else .ok (ids, b)
      else .ok (ids, b)
    else .ok (ids, b)

/-- mp3.py:253-273: the blocks of an SRS from `pos` up to `stop`, with a step budget.  A size
that is not zero advances. -/
def mp3SrsBlocks (file : Bytes) (stop : Int) : Nat → Int → Res (List Mp3Block)
  | 0, _ => .error .fuel
  | fuel + 1, pos =>
    if pos < stop then do
      let m ← seekRead file pos 4
      let z ← seekRead file (pos + 4) 4
      match unpackAt 4 z 0 with
      | .error _ => throw .invalidData
      | .ok size =>
        if m.any (· ≥ 128) then throw .unicodeError
        else if size = 0 then throw .invalidData
        else if (size : Int) > stop then throw .invalidData
        else do
          let l ← mp3SrsBlocks file stop fuel (pos + size)
          return ⟨size, .srs m, pos⟩ :: l
    else .ok []

/-- mp3.py:240-283: the main content from `b` to `e`. -/
def mp3Main (file : Bytes) (b e : Int) : Res (List Mp3Block) := do
  let m ← seekRead file b 4
  if m = [] then throw .invalidData
  else if m.length < 2 then throw .structError
  else if m.take 3 = mSRS then mp3SrsBlocks file (b + (e - b)) (file.length + 1) b
  else return [⟨e - b, .mp3, b⟩]

/-- `blocks.sort(key=lambda block: block.start_pos)`. -/
def mp3Sort (l : List Mp3Block) : List Mp3Block := l.mergeSort fun a b => decide (a.start ≤ b.start)

/-- mp3.py:76-286 `Mp3Reader.__init__`: the blocks. -/
def mp3Blocks (file : Bytes) : Res (List Mp3Block) := do
  let (ids, b) ← mp3Id3s file (file.length + 1) 0
  let (v1, e) ← mp3V1 file
  let (l2, e) ← mp3Lyrics2 file e
  let (l1, e) ← mp3Lyrics1 file e
  let (ape, e) ← mp3Ape file e
  let (ids, b) ← mp3Fix file ids b
  let mid ← mp3Main file b e
  return mp3Sort (ids ++ (v1 ++ (l2 ++ (l1 ++ (ape ++ mid)))))

/-- mp3.py:295-297 `read_contents`. -/
def mp3Contents (file : Bytes) (b : Mp3Block) : Res Bytes := seekRead file b.start b.size

/-- mp3.py:299-304 `read_part`. -/
def mp3Part (file : Bytes) (b : Mp3Block) (size offset : Int) : Res Bytes :=
  if b.start + offset + size > b.start + b.size then .error .valueError
  else seekRead file (b.start + offset) size

/-- `block.type in ("MP3", "fLaC")`. -/
def Mp3Block.isMain (b : Mp3Block) : Bool := b.ty == .mp3 || b.ty == .srs mFLaC

/-- `block.type in ("SRSF", "SRST", "SRSP")`. -/
def Mp3Block.isSrs (b : Mp3Block) : Bool := b.ty == .srs mSRSF || b.ty == .srs mSRST || b.ty == .srs mSRSP

/-- State of the loop in `mp3_profile_sample`. -/
structure Mp3Profile where
  crc : BitVec 32
  meta_ : Int
  tracks : Tracks
  deriving DecidableEq, Repr

/-- main.py:1672-1699: one block.  The sound is read in pieces of 64 KiB there
(`crc_any_chunks`).  Simplified: sound data of negative size (overlapping tags) is refused here
instead of when its size is written. -/
def mp3ProfileBlock (file : Bytes) (s : Mp3Profile) (b : Mp3Block) : Res Mp3Profile :=
  if b.isMain then
    if b.size < 0 then .error .structError
    else do
      let d ← mp3Part file b b.size 0
      let sig ← mp3Part file b (if 256 < b.size then 256 else b.size) 0
      let t : TrackData := { number := 1, dataLength := b.size.toNat, sig := sig }
      return ⟨crc32 d s.crc, s.meta_, s.tracks.put 1 t⟩
  else do
    let d ← mp3Contents file b
    return ⟨crc32 d s.crc, s.meta_ + b.size, s.tracks⟩

/-- main.py:1666-1736 `mp3_profile_sample`: the CRC and the tracks. -/
def mp3Profile (file : Bytes) : Res (BitVec 32 × Tracks) := do
  let bs ← mp3Blocks file
  let s ← bs.foldlM (mp3ProfileBlock file) ⟨0, 0, []⟩
  if (file.length : Int) ≠ s.meta_ + (s.tracks.map fun t => t.2.dataLength).sum then throw .incompleteSample
  else return (s.crc, s.tracks)

/-- main.py:516-523: the fingerprint block; `fp` is the answer of the program fpcalc, `none`
when there is none or the duration is not a number.  Every exception is swallowed. -/
def mp3Fingerprint (fp : Option (Nat × Bytes)) : Bytes :=
  match fp with
  | none => []
  | some (duration, print) =>
    match (do
      let n ← pack 4 (8 + 4 + 4 + print.length)
      let d ← pack 4 duration
      let l ← pack 4 print.length
      return mSRSP ++ (n ++ (d ++ (l ++ print))) : Res Bytes) with
    | .ok b => b
    | .error _ => []

/-- main.py:511-527 `TrackData.serialize_as_mp3`. -/
def mp3Track (t : TrackData) (fp : Option (Nat × Bytes)) : Res Bytes := do
  let d ← trackSerialize t
  let b ← srsBlock mSRST d
  return b ++ mp3Fingerprint fp

/-- main.py:2081-2089: what is written instead of the sound data. -/
def mp3Insert (app name : Str) (size crc : Nat) (tracks : Tracks) (fp : Option (Nat × Bytes))
    (bigFile : Bool) : Res Bytes := do
  let f ← fileSerialize app 3 name size crc
  let fb ← srsBlock mSRSF f
  let tb ← tracks.mapM fun (_, t) =>
    mp3Track (if bigFile then { t with flags := t.flags ||| 4 } else t) fp
  return fb ++ tb.flatten

/-- main.py:2080-2092: one block of `mp3_create_srs`; `ins` are the custom blocks. -/
def mp3CreateBlock (file : Bytes) (ins : Res Bytes) (out : Bytes) (b : Mp3Block) : Res Bytes :=
  if b.isMain then do
    let i ← ins
    return out ++ i
  else do
    let d ← mp3Contents file b
    return out ++ d

/-- main.py:2077-2093 `mp3_create_srs`: the bytes of the SRS file. -/
def mp3CreateSrs (app name : Str) (size crc : Nat) (tracks : Tracks) (fp : Option (Nat × Bytes))
    (bigFile : Bool) (sample : Bytes) : Res Bytes := do
  let bs ← mp3Blocks sample
  bs.foldlM (mp3CreateBlock sample (mp3Insert app name size crc tracks fp bigFile)) []

/-- main.py:864-870: one block; the state is as for FLAC. -/
def mp3LoadBlock (file : Bytes) (s : FlacLoad) (b : Mp3Block) : Res FlacLoad :=
  if b.ty = .srs mSRSF then do
    let d ← mp3Contents file b
    let f ← fileParse (d.drop 8)
    return { s with file := some f }
  else if b.ty = .srs mSRST then do
    let d ← mp3Contents file b
    let t ← trackParse (d.drop 8)
    return { s with tracks := s.tracks.put t.number t }
  else if b.ty = .srs mSRSP then do
    let _ ← s.tracks.get 1
    let d ← mp3Contents file b
    let p ← readFingerprint (d.drop 8)
    return { s with print := some p }
  else .ok s

/-- main.py:860-872 `mp3_load_srs`.  A file without description is an `UnboundLocalError`. -/
def mp3LoadSrs (file : Bytes) : Res (FileData × Tracks × Option (Nat × Bytes)) := do
  let bs ← mp3Blocks file
  let s ← bs.foldlM (mp3LoadBlock file) {}
  match s.file with
  | none => throw .unboundLocal
  | some f => return (f, s.tracks, s.print)

/-- main.py:2803-2816 `mp3_match_signature`, with a step budget: every step goes
0x10000 - 256 + 1 further. -/
def mp3MatchSig (file : Bytes) (b : Mp3Block) (sig : Bytes) : Nat → Int → Res (Option Int)
  | 0, _ => .error .fuel
  | fuel + 1, off =>
    if off ≤ b.size then do
      let d ← mp3Part file b (min (b.size - off) 0x10000) off
      match bfind sig d with
      | some i => return some (off + i)
      | none => mp3MatchSig file b sig fuel (off + (0x10000 - 256 + 1))
    else .ok none

/-- main.py:2773-2799: the first block with sound.  Simplified: sound data of negative size
(overlapping tags) is refused. -/
def mp3FindBlock (file : Bytes) (tracks : Tracks) (b : Mp3Block) : Res Tracks :=
  if b.size < 0 then .error .other
  else do
    let t ← tracks.get 1
    let n : Int := if b.size < t.sig.length then b.size else t.sig.length
    let d ← mp3Part file b n 0
    let len := min t.dataLength b.size.toNat
    if t.sig = d then return tracks.put 1 { t with matchOffset := b.start, matchLength := len }
    else if d.length ≥ 2 ∧ isSync d = false then do
      match ← mp3MatchSig file b t.sig (file.length + 2) 0 with
      | some k => return tracks.put 1 { t with matchOffset := k, matchLength := len }
      | none => return tracks.put 1 { t with matchOffset := -1 }
    else return tracks.put 1 { t with matchOffset := -1 }

/-- main.py:2769-2801 `mp3_find_sample_streams`. -/
def mp3Find (tracks : Tracks) (main : Bytes) : Res Tracks := do
  let bs ← mp3Blocks main
  match bs.find? Mp3Block.isMain with
  | some b => mp3FindBlock main tracks b
  | none => return tracks

/-- main.py:3368-3383 `mp3_extract_sample_streams`: the contents of the file of track 1. -/
def mp3Extract (tracks : Tracks) (main : Bytes) : Res (Option Bytes) := do
  let bs ← mp3Blocks main
  match bs.find? Mp3Block.isMain with
  | none => return none
  | some b => do
    let t ← tracks.get 1
    if t.matchOffset - b.start < 0 then throw .assertError
    else do
      let d ← mp3Part main b t.matchLength (t.matchOffset - b.start)
      return some d

/-- State of `mp3_rebuild_sample`: what is written, its CRC, and whether the sound is. -/
structure Mp3Out where
  out : Bytes
  crc : BitVec 32
  done : Bool
  deriving DecidableEq, Repr

/-- main.py:3806-3818: one block of `mp3_rebuild_sample`. -/
def mp3RebuildBlock (srs track : Bytes) (s : Mp3Out) (b : Mp3Block) : Res Mp3Out :=
  if b.isSrs then
    if s.done then .ok s
    else .ok ⟨s.out ++ track, crc32 track s.crc, true⟩
  else do
    let d ← mp3Contents srs b
    return ⟨s.out ++ d, crc32 d s.crc, s.done⟩

/-- main.py:3795-3822 `mp3_rebuild_sample`: contents and CRC of the result. -/
def mp3Rebuild (srs track : Bytes) : Res (Bytes × BitVec 32) := do
  let bs ← mp3Blocks srs
  let s ← bs.foldlM (mp3RebuildBlock srs track) ⟨[], 0, false⟩
  return (s.out, s.crc)

/-- srs.py:463-470 and 139-146: some track was not located. -/
def mp3Unlocated (tracks : Tracks) : Bool := tracks.any fun t => t.2.matchOffset == -1

/-- srs.py:294-378: create the SRS of an MP3 file.  Files over 2 GiB need `-b`; without sound
nothing is made.  `check` is the main file given with `-c` (srs.py:123-155). -/
def srsMp3Create (app name : Str) (sample : Bytes) (fp : Option (Nat × Bytes)) (bigFile : Bool)
    (check : Option Bytes) : Res Bytes :=
  if sample.length ≥ 0x80000000 ∧ bigFile = false then .error .other
  else do
    let (crc, tracks) ← mp3Profile sample
    if tracks = [] then throw .other
    else do
      let tracks ← (match check with
        | none => .ok tracks
        | some main => do
          let tr ← mp3Find tracks main
          if mp3Unlocated tr then throw .other
          else return tr.filter (fun t => t.2.sig ≠ []) : Res Tracks)
      mp3CreateSrs app name sample.length crc.toNat tracks fp bigFile sample

/-- srs.py:415-516, 586: rebuild an MP3 file from its SRS and a file with the same sound.  The
tracks are always searched for music.  Not modelled: asking for permission to overwrite. -/
def srsMp3Reconstruct (srs main : Bytes) : Res SrsResult := do
  let (f, tracks, _) ← mp3LoadSrs srs
  let tracks ← mp3Find tracks main
  if mp3Unlocated tracks then throw .other        -- exit status 3
  else do
    let data ← mp3Extract tracks main
    -- srs.py:482-492 (exit status 4): only track 1 has a file
    if tracks.any (fun t => t.2.sig ≠ [] &&
        (t.1 != 1 || (match data with | none => true | some d => d.length < t.2.dataLength))) then throw .other
    else
      match data with
      | none => throw .attrError
      | some d => do
        -- main.py:3800-3801: every track has a file
        if tracks.any (fun t => t.1 != 1) then throw .attrError
        else do
          let (out, crc) ← mp3Rebuild srs d
          return ⟨out, f.size, f.crc, crc.toNat == f.crc⟩

end Rescene
