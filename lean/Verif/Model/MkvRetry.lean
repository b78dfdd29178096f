import Verif.Model.Mkv
/-
MKV samples whose signatures are short: the further offsets that are collected while the tracks
are searched (/repo/resample/main.py), and the attempts with them after a wrong CRC
(/repo/resample/srs.py).
-/
namespace Rescene

/-- main.py:562: the numbers of the tracks with a short signature, and the further offsets found for
each. -/
abbrev CutData := List (Nat × List Int)

/-- main.py:795-801: the tracks without enough signature data; nothing is found for them yet. -/
def cutTracks (tracks : MkvTracks) : CutData :=
  (tracks.filter fun t => !enoughSignature t.2).map fun t => (t.1, [])

/-- main.py:2397-2430 `_extra_offsets_x265_bug`: the offsets of the frames that look like the signature.
`check_bytes_bug` is empty again after each frame, so lines 2403-2415 are never executed. -/
def extraOffsets (base : Int) (ss sm buff sig : Bytes) : Int → List Int → List Int
  | _, [] => []
  | offset, fr :: rest =>
    let fl := fr + ss.length - sm.length
    let lcb := min (sig.length : Int) fl
    let cb := ss ++ pySlice buff (offset + sm.length) (offset + sm.length + lcb - ss.length)
    (if cb.isPrefixOf sig then [base + offset] else []) ++ extraOffsets base ss sm buff sig (offset + fr) rest

/-- The search with the offsets found so far. -/
structure MkvSeek where
  s : MkvFind
  cut : CutData

/-- main.py:2253-2292: like `mkvFindHow`; the blocks of a track with a short signature are always
read. -/
def mkvSeekHow (s : MkvSeek) (e : EbmlElem) : EbmlHow :=
  match e.block with
  | some b => if (movGet s.cut b.track).isSome then .read else mkvFindHow s.s e
  | none => mkvFindHow s.s e

/-- main.py:2298-2430 `_mkv_block_find` and, outside of the first branch, `_extra_offsets_x265_bug`. -/
def mkvSeekBlock (s : MkvSeek) (e : EbmlElem) (b : EbmlBlock) (buff : Bytes) : MkvSeek × Bool :=
  let t := mkvTrackOf s.s.tracks b.track
  let set := (movGet s.s.mains b.track).getD []
  let differ : Bool := t.settings ≠ set
  let sm := if differ then t.settings else []
  let ss := if differ then set else []
  let base : Int := e.start + e.header.length + b.head.length
  let cut := if t.search then s.cut
    else match movGet s.cut b.track with
      | none => s.cut
      | some l => dictPut s.cut b.track (l ++ extraOffsets base ss sm buff t.sig 0 b.frames)
  (⟨(mkvBlockFind s.s e b buff).1, cut⟩, (mkvBlockFind s.s e b buff).2)

/-- main.py:2252-2292: one turn of the loop of `mkv_find_sample_streams`. -/
def mkvSeekItem (s : MkvSeek) (e : EbmlElem) (data : Bytes) : Res (MkvSeek × Bool) :=
  match e.block with
  | some b => .ok (mkvSeekBlock s e b data)
  | none => do
    let (f, done) ← mkvFindItem s.s e data
    return (⟨f, s.cut⟩, done)

/-- main.py:2241-2296 `mkv_find_sample_streams`, with `cut_data`. -/
def mkvSeek (tracks : MkvTracks) (cut : CutData) (main : Bytes) : Res (MkvTracks × CutData) := do
  let s ← mkvWalk .mkv true mkvSeekHow main mkvSeekItem ⟨{ tracks := tracks }, cut⟩
  return (s.s.tracks, s.cut)

/-- A temporary file of a track: its contents and its position, which is not its end when it was
read for an earlier attempt. -/
structure LiveFile where
  data : Bytes := []
  pos : Nat := 0
  deriving DecidableEq, Repr

/-- `file.write(d)`. -/
def LiveFile.write (f : LiveFile) (d : Bytes) : LiveFile :=
  ⟨f.data.take f.pos ++ d ++ f.data.drop (f.pos + d.length), f.pos + d.length⟩

abbrev LiveFiles := Nat → Option LiveFile

def LiveFiles.set (f : LiveFiles) (n : Nat) (x : Option LiveFile) : LiveFiles := fun k => if k = n then x else f k

/-- main.py:3179-3211: the loop over the frames. -/
def mkvWriteOn (t : MkvTrack) (base : Int) (ss sm buff : Bytes) : LiveFile → Int → List Int → LiveFile
  | out, _, [] => out
  | out, offset, fr :: rest =>
    let out := if base + offset ≥ t.offset ∧ (out.pos : Int) < t.len then out.write (mkvPiece ss sm buff offset fr) else out
    mkvWriteOn t base ss sm buff out (offset + fr) rest

/-- The state of `mkv_extract_sample_streams`; the files of `s` are not used. -/
structure MkvLive where
  s : MkvExtract := {}
  files : LiveFiles

/-- main.py:3158-3225 `_mkv_block_extract` with files that may exist. -/
def mkvLiveBlock (tracks : MkvTracks) (l : MkvLive) (e : EbmlElem) (b : EbmlBlock) (buff : Bytes) : Res (MkvLive × Bool) :=
  match movGet tracks b.track with
  | none => .ok (l, false)
  | some t =>
    match movGet l.s.mains b.track with
    | none => .error .keyError
    | some ss =>
      if mkvWanted t e b then
        let base : Int := e.start + e.header.length + b.head.length
        let files := l.files.set b.track (some (mkvWriteOn t base ss t.settings buff ((l.files b.track).getD {}) 0 b.frames))
        .ok ({ l with files := files }, tracks.all fun x =>
          match files x.1 with
          | none => false
          | some d => decide (x.2.len ≤ (d.pos : Int)))
      else .ok (l, false)

/-- main.py:3088-3150: one turn of the loop of `mkv_extract_sample_streams`. -/
def mkvLiveItem (tracks : MkvTracks) (l : MkvLive) (e : EbmlElem) (data : Bytes) : Res (MkvLive × Bool) :=
  match e.block with
  | some b => mkvLiveBlock tracks l e b data
  | none => do
    let (s, done) ← mkvExtractItem tracks l.s e data
    return ({ l with s := s }, done)

/-- main.py:3071-3156 `mkv_extract_sample_streams` with files that may exist. -/
def mkvExtractOn (tracks : MkvTracks) (files : LiveFiles) (main : Bytes) : Res (LiveFiles × MkvAttach) := do
  let l ← mkvWalk .mkv true (fun l e => mkvExtractHow tracks (mkvStart tracks) l.s e) main (mkvLiveItem tracks) { files := files }
  return (l.files, l.s.atts)

/-- main.py:3470-3538 `mkv_rebuild_sample`: contents and CRC of the result, and the files, which are
read from their start up to where the rebuilding stops. -/
def mkvRebuildOn (srs : Bytes) (flags : Nat) (tracks : MkvTracks) (files : LiveFiles) (atts : MkvAttach) :
    Res (Bytes × BitVec 32 × LiveFiles) := do
  let s ← mkvWalk .srs true (mkvRebuildHow flags) srs (mkvRebuildItem tracks)
    { files := fun n => (files n).map (·.data), atts := atts }
  return (s.out, s.crc, fun n => (files n).map fun f => ⟨f.data, f.data.length - ((s.files n).getD []).length⟩)

/-- srs.py:163-167: the offsets of the tracks that have no further ones. -/
def goodOffsets (tracks : MkvTracks) (cut : CutData) : List Int :=
  (tracks.filter fun t => (movGet cut t.1).getD [] == []).map fun t => t.2.offset

/-- srs.py:173-184: `last_before`, `first_after` and `in_range`. -/
def sortOffsets (lo hi : Int) : List Int → Int × Int × List Int → Int × Int × List Int
  | [], r => r
  | o :: os, (before, after, between) =>
    sortOffsets lo hi os
      (if o < lo then (if o > before then o else before, after, between)
       else if o > hi then (before, if o < after ∨ after = -1 then o else after, between)
       else if lo < o ∧ o < hi then (before, after, between ++ [o])
       else (before, after, between))

/-- srs.py:171-193: the offsets that are suggested for a track whose match is `current`. -/
def suggested (lo hi current : Int) (found : List Int) : List Int :=
  let r := sortOffsets lo hi found (-1, -1, [])
  let l := (if r.1 ≠ -1 then [r.1] else []) ++ (if r.2.1 ≠ -1 then [r.2.1] else []) ++ r.2.2.reverse
  if l = [] then [current] else l

/-- Python's `min` and `max` of a list: a `ValueError` for an empty one. -/
def minMax : List Int → Res (Int × Int)
  | [] => .error .valueError
  | a :: l => .ok (l.foldl min a, l.foldl max a)

/-- srs.py:157-193 `find_best_educated_guesses`: the numbers of the tracks with their suggested offsets,
in the order of `cut_data`. -/
def educatedGuesses (tracks : MkvTracks) (cut : CutData) : Res CutData := do
  let (lo, hi) ← minMax (goodOffsets tracks cut)
  cut.mapM fun (n, found) =>
    match movGet tracks n with
    | none => .error .keyError
    | some t => .ok (n, suggested lo hi t.offset found)

/-- srs.py:545-558: for each of `offsets`, set the offset of the track and go on with `next`, until a
rebuild is good.  `ρ` is the outcome of an attempt, with `true` when it is good. -/
def checkOffsets {σ ρ : Type} (set : Int → σ → Res σ) (next : σ → Option ρ → Res (σ × Option ρ × Bool)) :
    List Int → σ → Option ρ → Res (σ × Option ρ × Bool)
  | [], s, last => .ok (s, last, false)
  | o :: os, s, last => do
    let s ← set o s
    let (s, last, success) ← next s last
    if success then return (s, last, true) else checkOffsets set next os s last

/-- srs.py:537-569 `check_tracks`. -/
def checkTracks {σ ρ : Type} (set : Nat → Int → σ → Res σ) (attempt : σ → Res (σ × ρ × Bool)) :
    CutData → σ → Option ρ → Res (σ × Option ρ × Bool)
  | [], s, _ => do
    let (s, r, good) ← attempt s
    return (s, some r, good)
  | (n, os) :: others, s, last => checkOffsets (set n) (checkTracks set attempt others) os s last

/-- The tracks and their files in between attempts. -/
structure RetryState where
  tracks : MkvTracks
  files : LiveFiles

/-- srs.py:539-546: another offset for a track.  Without a file it is an `AttributeError`. -/
def setOffset (n : Nat) (o : Int) (s : RetryState) : Res RetryState :=
  match movGet s.tracks n with
  | none => .error .keyError
  | some t =>
    if t.offset = o then .ok s
    else if (s.files n).isNone then .error .attrError
    else .ok ⟨dictPut s.tracks n { t with offset := o, check := [], matchLen := 0 }, s.files.set n none⟩

/-- srs.py:528-536, 550-556: extract, rebuild, and compare the CRC. -/
def mkvAttempt (srs main : Bytes) (f : FileData) (s : RetryState) : Res (RetryState × SrsResult × Bool) := do
  let (files, atts) ← mkvExtractOn s.tracks s.files main
  let (out, crc, files) ← mkvRebuildOn srs f.flags s.tracks files atts
  return (⟨s.tracks, files⟩, ⟨out, f.size, f.crc, crc.toNat == f.crc⟩, crc.toNat == f.crc)

/-- srs.py:518-584: the attempts after a wrong CRC; the result is that of the last. -/
def mkvRetry (srs main : Bytes) (f : FileData) (cut : CutData) (s : RetryState) : Res SrsResult := do
  let guesses ← educatedGuesses s.tracks cut
  let (_, last, _) ← checkTracks setOffset (mkvAttempt srs main f) guesses s none
  match last with
  | none => throw .attrError
  | some r => return r

/-- srs.py:438-586: rebuild an MKV sample from its SRS and a main file, with the attempts after a wrong
CRC.  The questions, and what happens with the files, are in SrsFiles. -/
def srsMkvRestore (srs main : Bytes) (ignoreOffset : Bool) : Res SrsResult := do
  let (f, tracks) ← mkvLoadSrs srs
  let (tracks, cut) ← (if ignoreOffset = true ∨ tracks.any (fun t => t.2.offset == 0) = true ∨ cutTracks tracks ≠ [] then do
      let (tr, cut) ← mkvSeek tracks (cutTracks tracks) main
      if mkvUnlocated tr then throw .other   -- exit status 3
      else return (tr, cut)
    else .ok (tracks, []) : Res (MkvTracks × CutData))
  let (files, atts) ← mkvExtractOn tracks (fun _ => none) main
  if tracks.any (fun t => t.2.sig ≠ [] && (match files t.1 with
      | none => true
      | some b => decide ((b.pos : Int) < t.2.len))) then throw .other   -- exit status 4
  else
    match f with
    | none => throw .attrError
    | some f => do
      let (out, crc, files) ← mkvRebuildOn srs f.flags tracks files atts
      if crc.toNat == f.crc then return ⟨out, f.size, f.crc, true⟩
      else if cut.any (fun c => c.2.any (· ≠ 0)) then mkvRetry srs main f cut ⟨tracks, files⟩
      else return ⟨out, f.size, f.crc, false⟩

end Rescene
