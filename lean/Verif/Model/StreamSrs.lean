import Verif.Model.SrsData
import Verif.Model.Crc
/-
Samples handled as one blob (VOB, M2TS, ...): /repo/resample/stream.py and the `stream_*`
functions of /repo/resample/main.py.  The contents of the sample and of the main file are
byte lists; a main file inside RAR volumes is the unpacked stream (`RarStream`).
-/
namespace Rescene

/-- stream.py:43-51 `Block`: marker, size field, start. -/
structure SBlock where
  marker : Bytes
  size : Nat
  start : Nat
  deriving DecidableEq, Repr

/-- `b"STRM"`, `b"M2TS"`, `b"SRSF"`, `b"SRST"`. -/
def mSTRM : Bytes := [0x53, 0x54, 0x52, 0x4D]
def mM2TS : Bytes := [0x4D, 0x32, 0x54, 0x53]
def mSRSF : Bytes := [0x53, 0x52, 0x53, 0x46]
def mSRST : Bytes := [0x53, 0x52, 0x53, 0x54]

/-- stream.py:72-100: one turn of the loop of the constructor at `pos`: `none` when the
loop is over, else the block and the next position. -/
def streamStep (file : Bytes) (pos : Nat) : Res (Option (SBlock × Nat)) :=
  if pos < file.length then
    if pos + 8 > file.length then .error .invalidData
    else
      let marker := readAt file pos 4
      if pos = 0 ∧ marker ≠ mSTRM ∧ marker ≠ mM2TS then .error .invalidData
      else do
        let size ← unpackAt 4 (readAt file (pos + 4) 4) 0
        if size = 0 ∧ pos ≠ 0 then throw .invalidData
        else if pos + size > file.length then throw .invalidData
        else return some (⟨marker, size, pos⟩, pos + size)
  else .ok none

/-- stream.py:71-101: the loop, with a step budget. -/
def streamBlocks (file : Bytes) : Nat → Nat → Res (List SBlock)
  | 0, _ => .error .fuel
  | fuel + 1, pos => do
    match ← streamStep file pos with
    | none => return []
    | some (b, pos') => do
      let l ← streamBlocks file fuel pos'
      return b :: l

/-- A Python `dict` from track numbers to tracks, in insertion order. -/
abbrev Tracks := List (Nat × TrackData)

/-- `tracks[n] = t`. -/
def Tracks.put : Tracks → Nat → TrackData → Tracks
  | [], n, t => [(n, t)]
  | (k, x) :: l, n, t => if k = n then (k, t) :: l else (k, x) :: Tracks.put l n t

/-- `tracks[n]`. -/
def Tracks.get (l : Tracks) (n : Nat) : Res TrackData :=
  match l.find? (·.1 == n) with
  | some (_, t) => .ok t
  | none => .error .keyError

/-- main.py:877-882, stream.py:108-111: handle one block.  `size - 8` is negative for a size
below 8, and `read` then returns the rest of the file. -/
def streamLoadBlock (file : Bytes) (st : Option FileData × Tracks) (b : SBlock) :
    Res (Option FileData × Tracks) :=
  let contents := if b.size < 8 then file.drop (b.start + 8) else readAt file (b.start + 8) (b.size - 8)
  if b.marker = mSRSF then do
    let f ← fileParse contents
    return (some f, st.2)
  else if b.marker = mSRST then do
    let t ← trackParse contents
    return (st.1, st.2.put t.number t)
  else .ok st

/-- main.py:874-884 `stream_load_srs`.  A file without description is an
`UnboundLocalError`.  The budget is one step per byte; see `srs_load_hangs`. -/
def streamLoadSrs (file : Bytes) : Res (FileData × Tracks) := do
  let blocks ← streamBlocks file (file.length + 1) 0
  let (f, tracks) ← blocks.foldlM (streamLoadBlock file) (none, [])
  match f with
  | none => throw .unboundLocal
  | some f => return (f, tracks)

/-- main.py:1738-1779 `stream_profile_sample`: the CRC, and the one track. -/
def streamProfile (sample : Bytes) : Res (BitVec 32 × Tracks) := do
  let crc ← calculateCrc32 sample
  return (crc, [(1, { number := 1, dataLength := sample.length, sig := sample.take 256 })])

/-- main.py:356-364 and 527-532: a block with its marker and size. -/
def srsBlock (marker data : Bytes) : Res Bytes := do
  let n ← pack 4 (8 + data.length)
  return marker ++ (n ++ data)

/-- main.py:2096-2107 `stream_create_srs`: the bytes of the SRS file.  The flags of the
description are 3 (main.py:270). -/
def streamCreateSrs (app name : Str) (size crc : Nat) (tracks : Tracks) (bigFile : Bool) : Res Bytes := do
  let f ← fileSerialize app 3 name size crc
  let fb ← srsBlock mSRSF f
  let tb ← tracks.mapM fun (_, t) => do
    let t := if bigFile then { t with flags := t.flags ||| 4 } else t
    let d ← trackSerialize t
    srsBlock mSRST d
  return mSTRM ++ ([8, 0, 0, 0] ++ (fb ++ tb.flatten))

/-- `hay.find(needle)`: index of the first occurrence. -/
def bfind (needle : Bytes) : Bytes → Option Nat
  | [] => if needle = [] then some 0 else none
  | h :: t => if needle.isPrefixOf (h :: t) then some 0 else (bfind needle t).map (· + 1)

/-- `hay.find(needle, start)` for `start ≥ 0`. -/
def bfindFrom (needle hay : Bytes) (start : Nat) : Option Nat :=
  if start ≤ hay.length then (bfind needle (hay.drop start)).map (· + start) else none

/-- main.py:2829-2852: the search loop with a step budget: `p` is the previous read, `x`
the current one, `rest` what is left to read, `tell` the file position.  `-1` is `none`.
`ramount` is 0x10000.  `ramount - sig_size` is not negative: signatures in an SRS have at
most 65535 bytes (`Nat` subtraction; the theorems assume that bound). -/
def streamSearch (ramount : Nat) (sig : Bytes) : Nat → Bytes → Bytes → Bytes → Nat → Res (Option Nat)
  | 0, _, _, _, _ => .error .fuel
  | fuel + 1, p, x, rest, tell =>
    if x = [] then .ok none
    else
      let m := if p = [] then bfind sig x else bfindFrom sig (p ++ x) (ramount - sig.length)
      match m with
      | some i => .ok (some (tell - x.length - p.length + i))
      | none =>
        streamSearch ramount sig fuel x (rest.take ramount) (rest.drop ramount)
          (tell + (rest.take ramount).length)

/-- main.py:2818-2858 `stream_find_sample_streams` on the contents of the main file. -/
def streamFind (tracks : Tracks) (main : Bytes) : Res Tracks := do
  let t ← tracks.get 1
  let r := 0x10000
  let x := main.take r
  match ← streamSearch r t.sig (main.length + 2) [] x (main.drop r) x.length with
  | some k => return tracks.put 1 { t with checkBytes := t.sig, matchOffset := k, matchLength := t.sig.length }
  | none => return tracks.put 1 { t with matchOffset := -1 }

/-- main.py:3385-3402 `stream_extract_sample_streams`: the contents of the track file.
Seeking to a negative offset is an `OSError`. -/
def streamExtract (tracks : Tracks) (main : Bytes) : Res Bytes := do
  let t ← tracks.get 1
  if t.matchOffset < 0 then throw .envError
  else
    let off := t.matchOffset.toNat
    if readAt main off t.sig.length ≠ t.sig then throw .assertError
    else return readAt main off t.dataLength

/-- main.py:3824-3835 `stream_rebuild_sample`: contents and CRC of the result. -/
def streamRebuild (trackFile : Bytes) : Bytes × BitVec 32 := (trackFile, crc32 trackFile 0)

/-- srs.py:294-378: creating an SRS for a sample: files over 2 GiB need `-b`; then profile and
create, optionally after locating the sample in a main file (`-c`, srs.py:123-155). -/
def srsCreate (app name : Str) (sample : Bytes) (bigFile : Bool) (check : Option Bytes) : Res Bytes :=
  if sample.length ≥ 0x80000000 ∧ bigFile = false then .error .other
  else do
    let (crc, tracks) ← streamProfile sample
    let tracks ← (match check with
      | none => .ok tracks
      | some main => do
        let tr ← streamFind tracks main
        if tr.any (fun t => t.2.matchOffset == -1) then throw .other
        else return tr.filter (fun t => t.2.sig ≠ []) : Res Tracks)
    streamCreateSrs app name sample.length crc.toNat tracks bigFile

/-- What `srs` does with the rebuilt sample. -/
structure SrsResult where
  file : Bytes       -- contents of the rebuilt file
  size : Nat         -- size recorded in the SRS
  crc : Nat          -- CRC recorded in the SRS
  good : Bool        -- reported as success and put in place (srs.py:586-588)
  deriving DecidableEq, Repr

/-- srs.py:438-492, 513-516, 586: reconstruct a stream sample from an SRS and a main file.
The tracks are searched when some stored offset is 0 or with `-m`.  Not modelled: the retries
for x265 streams (`cut_data`, Matroska only: see MkvRetry), asking for permission to overwrite. -/
def srsReconstruct (srs main : Bytes) (ignoreOffset : Bool) : Res SrsResult := do
  let (f, tracks) ← streamLoadSrs srs
  let tracks ← (if ignoreOffset = true ∨ tracks.any (fun t => t.2.matchOffset == 0) = true then do
      let tr ← streamFind tracks main
      if tr.any (fun t => t.2.matchOffset == -1) then throw .other   -- exit status 3
      else return tr
    else .ok tracks : Res Tracks)
  let data ← streamExtract tracks main
  -- srs.py:482-492: only track 1 has a track file
  if tracks.any (fun t => t.2.sig ≠ [] && (t.1 != 1 || data.length < t.2.dataLength)) then throw .other
  else
    let (out, crc) := streamRebuild data
    return ⟨out, f.size, f.crc, crc.toNat == f.crc⟩

end Rescene
