import Verif.Model.SrsMain
import Verif.Model.Streams
/-
A movie in RAR volumes as the command `srs` sees it: which archived file `file_type_info` of
/repo/resample/main.py takes, and what the readers of /repo/resample get of it.
-/
namespace Rescene

/-- utility.py:139-143 `VideoExtensions + AudioExtensions`. -/
def mediaExtensions : List Str :=
  [str ".mp4", str ".m4v", str ".avi", str ".mkv", str ".wmv"] ++ streamExtensions ++ [str ".mp3", str ".flac"]

/-- rar.py:1642-1648 `list_files` of a RAR archive.  `RarNewSubBlock` is a subclass of
`RarPackedFileBlock`. -/
def listFiles (blocks : List Block) : List Str :=
  blocks.filterMap fun b =>
    match b.kind with
    | .packed f => some f.name
    | .newSub f _ => some f.name
    | _ => none

/-- main.py:129, 149-157: the first archived file with one of the extensions, else the empty string. -/
def archivedName (blocks : List Block) : Str :=
  ((listFiles blocks).find? fun n => mediaExtensions.any fun e => e.isSuffixOf n).getD []

/-- main.py:148-159. -/
def movieName (raw : Bytes) : Res Str := do
  let blocks ← readAll raw
  return archivedName blocks

/-- `RarStream(path, name).read(size)`. -/
def rarRead (dig : Nat → Bool) (fs : Str → Option Bytes) (fuel : Nat) (path : Str) (name : Option Str) (size : Int) : Res Bytes := do
  let s ← rsOpen dig fs fuel path name false false
  let (b, _) ← s.read size
  return b

/-- main.py:113-254 `file_type_info`: the type and the name of the archived file.  Not modelled: the
names of the exceptions for a path that is not a readable file. -/
def fileTypeInfo (dig : Nat → Bool) (lower : Str → Str) (fs : Str → Option Bytes) (fuel : Nat) (path : Str) : Res (SampleKind × Str) :=
  match fs path with
  | none => .error .valueError
  | some raw =>
    let marker := raw.take 14
    if marker.length < 14 then .ok (.unknown, [])
    else if mRAR4 <+: marker ∧ isRar dig path = true then
      match movieName raw with
      | .error _ => .ok (.unknown, [])
      | .ok name =>
        match rarRead dig fs fuel path (some name) 8 with
        | .error _ => .ok (.unknown, name)
        | .ok marker => do
          let k ← markerKind lower path raw marker
          return (k, name)
    else if mRAR5 <+: marker then .ok (.unknown, [])
    else do
      let k ← markerKind lower path raw marker
      return (k, [])

/-- riff.py:82-85, ebml.py:303-306, asf.py:79-82, mov.py:69-72, flac.py:73-76, mp3.py:82-85,
stream.py:58-61: what the readers read.  Simplified: all of it at once; any calls give the same
(`rar_stream_partial`). -/
def readerBytes (dig : Nat → Bool) (fs : Str → Option Bytes) (fuel : Nat) (path name : Str) : Res Bytes :=
  if isRar dig path = true then rarRead dig fs fuel path (some name) (-1)
  else match fs path with
    | none => .error .fileNotFound
    | some raw => .ok raw

/-- main.py:3245-3249 `open_main`: where the data of the tracks of an MP4 movie is read.  The name
of the archived file is not used. -/
def openMain (dig : Nat → Bool) (fs : Str → Option Bytes) (fuel : Nat) (path : Str) : Res Bytes :=
  if isRar dig path = true then rarRead dig fs fuel path none (-1)
  else match fs path with
    | none => .error .fileNotFound
    | some raw => .ok raw

/-- srs.py:230-262, 415-517: rebuild a sample from an SRS and a movie on the disk.  `none`: not
modelled, the SRS and the movie are of different kinds; or the movie is an MP4 file and `open_main`
reads another file than the reader. -/
def srsRestoreAt (dig : Nat → Bool) (lower : Str → Str) (fs : Str → Option Bytes) (fuel : Nat) (srsPath : Str) (srs : Bytes) (movie : Str)
    (ignoreOffset : Bool) : Option (Res SrsResult) :=
  match MediaFile.kind dig lower ⟨srsPath, srs, none⟩, fileTypeInfo dig lower fs fuel movie with
  | .error e, _ => some (.error e)
  | _, .error e => some (.error e)
  | .ok ks, .ok (km, name) =>
    if ks = .unknown then some (.error .other)
    else if km = .unknown ∧ ks ≠ .stream then some (.error .other)
    else if (if km = .unknown then .stream else km) = ks then
      match readerBytes dig fs fuel movie name with
      | .error e => some (.error e)
      | .ok d =>
        if ks = .mp4 ∧ openMain dig fs fuel movie ≠ .ok d then none
        else some (rebuildAs ks srs d ignoreOffset)
    else none

end Rescene
