import Verif.Model.Ebml
import Verif.Model.StreamSrs
/-
FLAC music samples: /repo/resample/flac.py and the `flac_*` functions of
/repo/resample/main.py, with the parts of /repo/resample/srs.py that call them.  Files are
byte lists; a main file inside RAR volumes is the unpacked stream (`RarStream`).
-/
namespace Rescene

/-- flac.py:45-61 `Block.type`: one of the strings "fLaC", "ID3", "TAG", or the number in the
first byte of the block. -/
inductive FlacType where
  | magic | id3 | tag
  | num (n : UInt8)
  deriving DecidableEq, Repr

/-- flac.py:45-65 `Block`. -/
structure FlacBlock where
  ty : FlacType
  size : Nat
  hdr : Bytes
  start : Nat
  deriving DecidableEq, Repr

/-- flac.py:54-57 `is_last_block`. -/
def FlacBlock.isLast (b : FlacBlock) : Bool :=
  match b.ty with
  | .num n => n &&& 0x80 != 0
  | _ => false

/-- flac.py:59-62 `is_frame_data`. -/
def FlacBlock.isFrame (b : FlacBlock) : Bool := b.ty == .num 0xFF

/-- `b"fLaC"`, `b"ID3"`, `b"TAG"`. -/
def mFLaC : Bytes := [0x66, 0x4C, 0x61, 0x43]
def mID3 : Bytes := [0x49, 0x44, 0x33]
def mTAG : Bytes := [0x54, 0x41, 0x47]

/-- flac.py:127-135: the block of the frame data, everything up to the end of the file or up
to an ID3v1 tag there.  Seeking to before the start of the file is an `OSError`.
Simplified: a tag that begins before the frame data would give a negative size (rejected
later, when the track is written); here it is an error at once. -/
def flacFrame (file : Bytes) (pos : Nat) : Res FlacBlock :=
  if file.length < 128 then .error .envError
  else if readAt file (file.length - 128) 3 = mTAG then
    if file.length - pos < 128 then .error .other
    else .ok ⟨.num 0xFF, file.length - pos - 128, [], pos⟩
  else .ok ⟨.num 0xFF, file.length - pos, [], pos⟩

/-- flac.py:136-148: a metadata block with header `h`. -/
def flacMeta (file h : Bytes) (ty : UInt8) (pos : Nat) : Res FlacBlock := do
  let n ← unpackBeAt 4 (0 :: h.drop 1) 0
  if pos + n > file.length then throw .invalidData
  else return ⟨.num ty, n, h, pos⟩

/-- flac.py:86-152 `FlacReader.read` at position `pos`: `none` at the end of the file. -/
def flacRead (file : Bytes) (pos : Nat) : Res (Option FlacBlock) :=
  if pos = file.length then .ok none
  else
    let h := readAt file pos 4
    if h = mFLaC then .ok (some ⟨.magic, 0, mFLaC, pos⟩)
    else if mID3.isPrefixOf h then do
      let raw := readAt file pos 10
      let size ← decodeId3Size (slice raw 6 10)
      return some ⟨.id3, size, raw, pos⟩
    else if mTAG.isPrefixOf h then .ok (some ⟨.tag, 128, [], pos⟩)
    else match h with
      | [] => .error .structError
      | ty :: _ =>
        if ty = 0xFF then do
          let b ← flacFrame file pos
          return some b
        else do
          let b ← flacMeta file h ty pos
          return some b

/-- flac.py:154-166 `read_contents`. -/
def flacContents (file : Bytes) (b : FlacBlock) : Bytes := readAt file (b.start + b.hdr.length) b.size

/-- What the body of a reading loop did with a block: `read_contents` (flac.py:154-166),
`skip_contents` (168-173), or leave the loop. -/
inductive FlacNext where
  | read | skip | stop
  deriving DecidableEq, Repr

/-- The position after reading or skipping the contents. -/
def flacPos (file : Bytes) (b : FlacBlock) : FlacNext → Nat
  | .read => b.start + b.hdr.length + (flacContents file b).length
  | _ => b.start + b.hdr.length + b.size

/-- The loop `while fr.read(): body`, with a step budget. -/
def flacLoop {σ : Type} (file : Bytes) (body : σ → FlacBlock → Res (σ × FlacNext)) :
    Nat → Nat → σ → Res σ
  | 0, _, _ => .error .fuel
  | fuel + 1, pos, s => do
    match ← flacRead file pos with
    | none => return s
    | some b => do
      let (s', n) ← body s b
      if n = .stop then return s'
      else flacLoop file body fuel (flacPos file b n) s'

/-- The whole loop from the start of the file; every turn advances (`flac_terminates`). -/
def flacAll {σ : Type} (file : Bytes) (body : σ → FlacBlock → Res (σ × FlacNext)) (s : σ) : Res σ :=
  flacLoop file body (file.length + 1) 0 s

/-- State of the loop in `flac_profile_sample`. -/
structure FlacProfile where
  crc : BitVec 32
  meta_ : Nat
  tracks : Tracks
  deriving DecidableEq, Repr

/-- main.py:1590-1624: one block.  The contents are read in pieces of 64 KiB there
(`crc_any_chunks`). -/
def flacProfileBlock (file : Bytes) (s : FlacProfile) (b : FlacBlock) : Res (FlacProfile × FlacNext) :=
  let m := s.meta_ + b.hdr.length
  let c := crc32 b.hdr s.crc
  if b.ty = .magic then .ok (⟨c, m, s.tracks⟩, .skip)
  else
    let c := crc32 (flacContents file b) c
    if b.isFrame then
      let t : TrackData := { number := 1, dataLength := b.size, sig := (flacContents file b).take 256 }
      .ok (⟨c, m, s.tracks.put 1 t⟩, .skip)
    else .ok (⟨c, m + b.size, s.tracks⟩, .skip)

/-- main.py:1584-1664 `flac_profile_sample`: the CRC and the tracks. -/
def flacProfile (file : Bytes) : Res (BitVec 32 × Tracks) := do
  let s ← flacAll file (flacProfileBlock file) ⟨0, 0, []⟩
  if file.length ≠ s.meta_ + (s.tracks.map fun t => t.2.dataLength).sum then throw .incompleteSample
  else return (s.crc, s.tracks)

/-- main.py:349-354, 488-491: a block of type `m` with a 24-bit size (the first byte of the
32-bit size is cut off). -/
def flacSrsBlock (m : UInt8) (data : Bytes) : Res Bytes := do
  let n ← packBe 4 data.length
  return m :: (n.drop 1 ++ data)

/-- main.py:492-500: the fingerprint block; `fp` is the answer of the program fpcalc, `none`
when there is none or the duration is not a number.  Every exception is swallowed. -/
def flacFingerprint (fp : Option (Nat × Bytes)) : Bytes :=
  match fp with
  | none => []
  | some (duration, print) =>
    match (do
      let n ← packBe 4 (4 + 4 + print.length)
      let d ← pack 4 duration
      let l ← pack 4 print.length
      return 0x75 :: (n.drop 1 ++ (d ++ (l ++ print))) : Res Bytes) with
    | .ok b => b
    | .error _ => []

/-- main.py:486-503 `TrackData.serialize_as_flac`. -/
def flacTrack (t : TrackData) (fp : Option (Nat × Bytes)) : Res Bytes := do
  let d ← trackSerialize t
  let b ← flacSrsBlock 0x74 d
  return b ++ flacFingerprint fp

/-- main.py:2058-2067: what is written after the "fLaC" marker. -/
def flacInsert (app name : Str) (size crc : Nat) (tracks : Tracks) (fp : Option (Nat × Bytes))
    (bigFile : Bool) : Res Bytes := do
  let f ← fileSerialize app 3 name size crc
  let fb ← flacSrsBlock 0x73 f
  let tb ← tracks.mapM fun (_, t) =>
    flacTrack (if bigFile then { t with flags := t.flags ||| 4 } else t) fp
  return fb ++ tb.flatten

/-- main.py:2053-2074: one block of `flac_create_srs`; `ins` are the custom blocks. -/
def flacCreateBlock (file : Bytes) (ins : Res Bytes) (out : Bytes) (b : FlacBlock) :
    Res (Bytes × FlacNext) := do
  let out := out ++ b.hdr
  let out ← (if b.ty = .magic then do let i ← ins; return out ++ i else .ok out : Res Bytes)
  if b.isFrame then return (out, .skip)
  else return (out ++ flacContents file b, .read)

/-- main.py:2050-2075 `flac_create_srs`: the bytes of the SRS file. -/
def flacCreateSrs (app name : Str) (size crc : Nat) (tracks : Tracks) (fp : Option (Nat × Bytes))
    (bigFile : Bool) (sample : Bytes) : Res Bytes :=
  flacAll sample (flacCreateBlock sample (flacInsert app name size crc tracks fp bigFile)) []

/-- State of `flac_load_srs`: description, tracks, and the fingerprint of track 1. -/
structure FlacLoad where
  file : Option FileData := none
  tracks : Tracks := []
  print : Option (Nat × Bytes) := none
  deriving DecidableEq, Repr

/-- main.py:537-541 `read_fingerprint_data`. -/
def readFingerprint (data : Bytes) : Res (Nat × Bytes) := do
  let d ← unpackAt 4 data 0
  let l ← unpackAt 4 data 4
  return (d, slice data 8 (8 + l))

/-- main.py:844-857: one block. -/
def flacLoadBlock (file : Bytes) (s : FlacLoad) (b : FlacBlock) : Res (FlacLoad × FlacNext) := do
  let (s, n) ← (
    if b.ty = .num 0x73 then do
      let f ← fileParse (flacContents file b)
      return ({ s with file := some f }, .read)
    else if b.ty = .num 0x74 then do
      let t ← trackParse (flacContents file b)
      return ({ s with tracks := s.tracks.put t.number t }, .read)
    else if b.ty = .num 0x75 then do
      let _ ← s.tracks.get 1
      let p ← readFingerprint (flacContents file b)
      return ({ s with print := some p }, .read)
    else .ok (s, .skip) : Res (FlacLoad × FlacNext))
  if b.ty = .num 0 ∨ b.isLast = true then return (s, .stop) else return (s, n)

/-- main.py:840-858 `flac_load_srs`.  A file without description is an `UnboundLocalError`. -/
def flacLoadSrs (file : Bytes) : Res (FileData × Tracks × Option (Nat × Bytes)) := do
  let s ← flacAll file (flacLoadBlock file) {}
  match s.file with
  | none => throw .unboundLocal
  | some f => return (f, s.tracks, s.print)

/-- main.py:2742-2764: one block of `flac_find_sample_streams`. -/
def flacFindBlock (file : Bytes) (tracks : Tracks) (b : FlacBlock) : Res (Tracks × FlacNext) :=
  if b.isFrame then do
    let t ← tracks.get 1
    if t.sig = (flacContents file b).take (min t.sig.length b.size) then
      let t := { t with checkBytes := t.sig, matchOffset := b.start, matchLength := min t.dataLength b.size }
      return (tracks.put 1 t, .stop)
    else return (tracks, .skip)
  else .ok (tracks, .skip)

/-- main.py:2740-2767 `flac_find_sample_streams`. -/
def flacFind (tracks : Tracks) (main : Bytes) : Res Tracks := flacAll main (flacFindBlock main) tracks

/-- main.py:3357-3363: one block of `flac_extract_sample_streams`. -/
def flacExtractBlock (file : Bytes) (tracks : Tracks) (s : Option Bytes) (b : FlacBlock) :
    Res (Option Bytes × FlacNext) :=
  if b.isFrame then do
    let _ ← tracks.get 1
    return (some (flacContents file b), .read)
  else .ok (s, .skip)

/-- main.py:3355-3366 `flac_extract_sample_streams`: the contents of the file of track 1. -/
def flacExtract (tracks : Tracks) (main : Bytes) : Res (Option Bytes) :=
  flacAll main (flacExtractBlock main tracks) none

/-- State of `flac_rebuild_sample`: what is written, its CRC, the number of SRS blocks. -/
structure FlacOut where
  out : Bytes
  crc : BitVec 32
  srs : Nat
  deriving DecidableEq, Repr

/-- `fr.block_type in bytearray(b"stu")`: looking for a string in a `bytearray` is a
`TypeError` (Python 3). -/
def flacIsSrs : FlacType → Res Bool
  | .num n => .ok (n == 0x73 || n == 0x74 || n == 0x75)
  | _ => .error .typeError

/-- main.py:3766-3787: one block of `flac_rebuild_sample`. -/
def flacRebuildBlock (srs track : Bytes) (s : FlacOut) (b : FlacBlock) : Res (FlacOut × FlacNext) :=
  if b.ty = .magic then .ok (⟨s.out ++ mFLaC, crc32 mFLaC s.crc, s.srs⟩, .skip)
  else do
    let m ← flacIsSrs b.ty
    if m = true ∧ s.srs ≤ 3 then return (⟨s.out, s.crc, s.srs + 1⟩, .skip)
    else
      let data := flacContents srs b
      let o := s.out ++ (b.hdr ++ data)
      let c := crc32 data (crc32 b.hdr s.crc)
      if b.isLast then return (⟨o ++ track, crc32 track c, s.srs⟩, .read)
      else return (⟨o, c, s.srs⟩, .read)

/-- main.py:3755-3793 `flac_rebuild_sample`: contents and CRC of the result. -/
def flacRebuild (srs track : Bytes) : Res (Bytes × BitVec 32) := do
  let s ← flacAll srs (flacRebuildBlock srs track) ⟨[], 0, 0⟩
  return (s.out, s.crc)

/-- srs.py:463-470 and 139-146: some track was not located. -/
def flacUnlocated (tracks : Tracks) : Bool := tracks.any fun t => t.2.sig ≠ [] && t.2.matchOffset == 0

/-- srs.py:294-378: create the SRS of a FLAC file.  Files over 2 GiB need `-b`; without audio
nothing is made.  `check` is the main file given with `-c` (srs.py:123-155). -/
def srsFlacCreate (app name : Str) (sample : Bytes) (fp : Option (Nat × Bytes)) (bigFile : Bool)
    (check : Option Bytes) : Res Bytes :=
  if sample.length ≥ 0x80000000 ∧ bigFile = false then .error .other
  else do
    let (crc, tracks) ← flacProfile sample
    if tracks = [] then throw .other
    else do
      let tracks ← (match check with
        | none => .ok tracks
        | some main => do
          let tr ← flacFind tracks main
          if flacUnlocated tr then throw .other
          else return tr.filter (fun t => t.2.sig ≠ []) : Res Tracks)
      flacCreateSrs app name sample.length crc.toNat tracks fp bigFile sample

/-- srs.py:415-516, 586: rebuild a FLAC file from its SRS and a file with the same audio.  The
tracks are always searched for music.  Not modelled: asking for permission to overwrite. -/
def srsFlacReconstruct (srs main : Bytes) : Res SrsResult := do
  let (f, tracks, _) ← flacLoadSrs srs
  let tracks ← flacFind tracks main
  if flacUnlocated tracks then throw .other        -- exit status 3
  else do
    let data ← flacExtract tracks main
    -- srs.py:482-492 (exit status 4): only track 1 has a file
    if tracks.any (fun t => t.2.sig ≠ [] &&
        (t.1 != 1 || (match data with | none => true | some d => d.length < t.2.dataLength))) then throw .other
    else
      match data with
      | none => throw .attrError
      | some d => do
        -- main.py:3760-3761: every track has a file
        if tracks.any (fun t => t.1 != 1) then throw .attrError
        else do
          let (out, crc) ← flacRebuild srs d
          return ⟨out, f.size, f.crc, crc.toNat == f.crc⟩

end Rescene
