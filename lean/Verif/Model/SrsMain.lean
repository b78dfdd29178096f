import Verif.Model.MkvRetry
import Verif.Model.Wmv
import Verif.Model.Mp3
import Verif.Model.Volumes
import Verif.Model.Create
/-
How the command `srs` finds out what kind of file it has: `file_type_info` of
/repo/resample/main.py, and the parts of /repo/resample/srs.py that choose with it what to do.
-/
namespace Rescene

/-- utility.py:121-123 `FileType`. -/
inductive SampleKind
  | mkv | avi | mp4 | wmv | flac | mp3 | stream | m2ts | unknown
  deriving DecidableEq, Repr

/-- main.py:117-126: the markers that are not defined elsewhere. -/
def mMKV : Bytes := [0x1A, 0x45, 0xDF, 0xA3]
def mRAR4 : Bytes := [0x52, 0x61, 0x72, 0x21, 0x1A, 0x07, 0x00]
def mRAR5 : Bytes := [0x52, 0x61, 0x72, 0x21, 0x1A, 0x07, 0x01, 0x00]
def mFtyp : Bytes := [0x66, 0x74, 0x79, 0x70]
def m3gp5 : Bytes := [0x33, 0x67, 0x70, 0x35]
def mWMV : Bytes := [0x30, 0x26, 0xB2, 0x75]
/-- main.py:100-101. -/
def mStreamSrs : Bytes := [0x53, 0x54, 0x52, 0x4D, 0x08, 0, 0, 0]
def mM2tsSrs : Bytes := [0x4D, 0x32, 0x54, 0x53, 0x08, 0, 0, 0]

/-- utility.py:139-140. -/
def streamExtensions : List Str :=
  [str ".vob", str ".m2ts", str ".ts", str ".mpeg", str ".mpg", str ".m2v", str ".m2p"]

/-- main.py:175-254: the kind from the first bytes, the name and, for files with tags, other
places of the file on disk. -/
def markerKind (lower : Str → Str) (path : Str) (file marker : Bytes) : Res SampleKind :=
  if mMKV <+: marker then .ok .mkv
  else if mRIFF <+: marker then if str ".mp3" <:+ path then .ok .mp3 else .ok .avi
  else if mFtyp <+: marker.drop 4 ∨ m3gp5 <+: marker then .ok .mp4
  else if mWMV <+: marker then .ok .wmv
  else if mFLaC <+: marker then .ok .flac
  else if mStreamSrs <+: marker then .ok .stream
  else if mM2tsSrs <+: marker then .ok .m2ts
  else if mID3 <+: marker then do
    let size ← decodeId3Size (slice marker 6 10)
    if readAt file (10 + size) 4 = mFLaC then return .flac else return .mp3
  else if mSRSF <+: marker then .ok .mp3
  else if marker.length < 2 then .error .structError
  else if isSync marker then .ok .mp3
  else if 128 ≤ file.length ∧ readAt file (file.length - 128) 3 = mTAG then .ok .mp3
  else if streamExtensions.any (fun e => e.isSuffixOf (lower path)) then .ok .stream
  else .ok .unknown

/-- A file that is given to the program.  `inner` is the archived file that is used when it is a
RAR archive (main.py:147-166), `none` when it cannot be read. -/
structure MediaFile where
  path : Str
  raw : Bytes
  inner : Option Bytes := none

/-- main.py:113-254 `file_type_info`: the type.  Not modelled: paths that are not readable files.
How the archived file is chosen and read is in Model/RarMovie.lean. -/
def MediaFile.kind (dig : Nat → Bool) (lower : Str → Str) (m : MediaFile) : Res SampleKind :=
  let marker := m.raw.take 14
  if marker.length < 14 then .ok .unknown
  else if mRAR4 <+: marker ∧ isRar dig m.path = true then
    match m.inner with
    | none => .ok .unknown
    | some d => markerKind lower m.path m.raw (d.take 8)
  else if mRAR5 <+: marker then .ok .unknown
  else markerKind lower m.path m.raw marker

/-- The stream that the readers use (riff.py:82-85 and the same in the others): the archived file
when the name is one of a RAR volume. -/
def MediaFile.data (dig : Nat → Bool) (m : MediaFile) : Res Bytes :=
  if isRar dig m.path = true then
    match m.inner with
    | none => .error .attrError
    | some d => .ok d
  else .ok m.raw

/-- srs.py:123-141 `verify_main`: which file to search.  Streams are not searched for in files of
other formats. -/
def checkFile (dig : Nat → Bool) (lower : Str → Str) (k : SampleKind) : Option MediaFile → Res (Option Bytes)
  | none => .ok none
  | some m => do
    let mk ← m.kind dig lower
    if mk ≠ k then
      if k ≠ .stream then throw .other
      else if mk = .avi ∨ mk = .mkv ∨ mk = .mp4 ∨ mk = .wmv ∨ mk = .mp3 ∨ mk = .flac then return none
      else do
        let d ← m.data dig
        return some d
    else do
      let d ← m.data dig
      return some d

/-- srs.py:346-350: a .vob file that is a RAR volume; `sig` is the signature of track 1.  A .vob
file without track 1 is a `KeyError`. -/
def vobIsRar (lower : Str → Str) (path : Str) (sig : Option Bytes) : Res Bool :=
  if str ".vob" <:+ lower path then
    match sig with
    | none => .error .keyError
    | some s => .ok ([0x52, 0x61, 0x72, 0x21].isPrefixOf s)
  else .ok false

/-- srs.py:346-355: the file to search, none when that is not wanted. -/
def vobCheck (dig : Nat → Bool) (lower : Str → Str) (k : SampleKind) (path : Str) (sig : Option Bytes) (check : Option MediaFile) :
    Res (Option Bytes) := do
  let r ← vobIsRar lower path sig
  if r then return none else checkFile dig lower k check

/-- srs.py:230-262, 291-365: create an SRS for `sample`.  Not modelled: samples that are RAR
archives by name; what kind M2TS does, which only an SRS file has; which error is reported when
there are several (the size, no tracks, the check). -/
def srsMake (dig : Nat → Bool) (lower : Str → Str) (app path : Str) (sample : Bytes) (fp : Option (Nat × Bytes)) (big : Bool)
    (check : Option MediaFile) : Res Bytes := do
  let name := basename path
  let sig1 := fun (ts : Tracks) => (ts.find? (·.1 == 1)).map (·.2.sig)
  match ← MediaFile.kind dig lower ⟨path, sample, none⟩ with
  | .stream => do
    let (_, ts) ← streamProfile sample
    let c ← vobCheck dig lower .stream path (sig1 ts) check
    srsCreate app name sample big c
  | .avi => do
    let (_, ts) ← aviProfile sample
    let c ← vobCheck dig lower .avi path (sig1 ts) check
    srsAviCreate app name sample big c
  | .mp4 => do
    let (_, ts) ← mp4Profile sample
    let c ← vobCheck dig lower .mp4 path (sig1 ts) check
    srsMp4Create app name sample big c
  | .wmv => do
    let (_, ts, _) ← wmvProfile sample
    let c ← vobCheck dig lower .wmv path (sig1 ts) check
    srsWmvCreate app name sample big c
  | .mkv => do
    let (_, ts) ← mkvProfile sample
    let c ← vobCheck dig lower .mkv path ((ts.find? (·.1 == 1)).map (·.2.sig)) check
    srsMkvCreate app name sample big c
  | .flac => do
    let (_, ts) ← flacProfile sample
    let c ← vobCheck dig lower .flac path (sig1 ts) check
    srsFlacCreate app name sample fp big c
  | .mp3 => do
    let (_, ts) ← mp3Profile sample
    let c ← vobCheck dig lower .mp3 path (sig1 ts) check
    srsMp3Create app name sample fp big c
  | .m2ts => throw .other
  | .unknown => throw .other

/-- srs.py:415-586: rebuild with the class of the kind. -/
def rebuildAs (k : SampleKind) (srs main : Bytes) (ignoreOffset : Bool) : Res SrsResult :=
  match k with
  | .stream => srsReconstruct srs main ignoreOffset
  | .avi => srsAviReconstruct srs main ignoreOffset
  | .mp4 => srsMp4Reconstruct srs main ignoreOffset
  | .wmv => srsWmvReconstruct srs main ignoreOffset
  | .mkv => srsMkvRestore srs main ignoreOffset
  | .flac => srsFlacReconstruct srs main
  | .mp3 => srsMp3Reconstruct srs main
  | .m2ts => .error .other
  | .unknown => .error .other

/-- srs.py:230-262, 415-517: rebuild a sample from an SRS and a movie.  `none`: not modelled, the
SRS and the movie are of different kinds, so that the functions of two kinds are mixed. -/
def srsRestore (dig : Nat → Bool) (lower : Str → Str) (srsPath : Str) (srs : Bytes) (movie : MediaFile) (ignoreOffset : Bool) :
    Option (Res SrsResult) :=
  match MediaFile.kind dig lower ⟨srsPath, srs, none⟩, movie.kind dig lower with
  | .error e, _ => some (.error e)
  | _, .error e => some (.error e)
  | .ok ks, .ok km =>
    if ks = .unknown then some (.error .other)
    else if km = .unknown ∧ ks ≠ .stream then some (.error .other)
    else if (if km = .unknown then .stream else km) = ks then
      match movie.data dig with
      | .error e => some (.error e)
      | .ok d => some (rebuildAs ks srs d ignoreOffset)
    else none

end Rescene
