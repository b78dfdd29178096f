import Verif.Model.Mp3
import Verif.Model.Files
/-
The fingerprint of a music file: /repo/resample/fpcalc.py.
-/
namespace Rescene

/-- What is outside: `fpcalc` is what the program prints for a file, `temp` is `tempfile.mkstemp`
with a suffix: the name of the new file, or an exception. -/
structure FpWorld where
  fpcalc : FS → Path → Bytes
  temp : FS → Str → Res Path

/-- fpcalc.py:55-57 `file_name.encode('ascii')` does not raise. -/
def asciiName (p : Str) : Bool := p.all (· < 128)

/-- fpcalc.py:264-270 `make_temp_suffix`. -/
def tempSuffix (p : Str) : Str :=
  str "-pyReScene_fpcalc" ++ (if (str ".flac").isSuffixOf p then str ".flac" else p.drop (p.length - 4))

/-- fpcalc.py:81 `stdout.split(b"\n")`. -/
def byteLines : Bytes → List Bytes
  | [] => [[]]
  | c :: r => if c = 0x0A then [] :: byteLines r else
    match byteLines r with
    | [] => [[c]]
    | l :: ls => (c :: l) :: ls

/-- The beginnings of lines that are looked for. -/
def fpDuration : Bytes := [0x44, 0x55, 0x52, 0x41, 0x54, 0x49, 0x4F, 0x4E, 0x3D]
def fpFinger : Bytes := [0x46, 0x49, 0x4E, 0x47, 0x45, 0x52, 0x50, 0x52, 0x49, 0x4E, 0x54, 0x3D]
/-- "ERROR: couldn't open the file" and "ERROR: couldn't find stream". -/
def fpNoOpen : Bytes := (str "ERROR: couldn't open the file").map fun c => UInt8.ofNat c
def fpNoStream : Bytes := (str "ERROR: couldn't find stream").map fun c => UInt8.ofNat c

/-- fpcalc.py:49-50: `duration`, `fp` and `bad`. -/
structure FpFound where
  duration : Bytes := []
  fp : Bytes := []
  bad : Bool := false
deriving DecidableEq

/-- fpcalc.py:82-94: one line of the output. -/
def fpLine (s : FpFound) (line : Bytes) : FpFound :=
  if fpDuration.isPrefixOf line then { s with duration := line.drop fpDuration.length }
  else if fpFinger.isPrefixOf line then { s with fp := line.drop fpFinger.length }
  else if fpNoOpen.isPrefixOf line then { s with bad := true }
  else if fpNoStream.isPrefixOf line then { s with bad := true }
  else s

/-- fpcalc.py:81-97: `none` when the output is bad. -/
def fpParse (out : Bytes) : Option (Bytes × Bytes) :=
  let s := (byteLines out).foldl fpLine {}
  if s.bad = true ∨ s.duration = [] ∨ s.fp = [] then none else some (s.duration, s.fp)

/-- fpcalc.py:122-127: copying a block in pieces, from `read` on.  What is written when the reader raises
does not matter: the file is deleted. -/
def copyBlock (file : Bytes) (b : Mp3Block) : Nat → Int → Res Bytes
  | 0, _ => .error .fuel
  | fuel + 1, read =>
    if read < b.size then do
      let n := if read + 65536 > b.size then b.size - read else 65536
      let d ← mp3Part file b n read
      let r ← copyBlock file b fuel (read + n)
      return d ++ r
    else .ok []

/-- fpcalc.py:117-129: the music data without tags.  Simplified: no file names of RAR volumes. -/
def stripTags (file : Bytes) : Res Bytes := do
  let blocks ← mp3Blocks file
  match blocks.find? Mp3Block.isMain with
  | none => return []
  | some b => copyBlock file b (b.size.toNat + 1) 0

/-- "Xing" and "LAME". -/
def mXing : Bytes := [0x58, 0x69, 0x6E, 0x67]
def mLAME : Bytes := [0x4C, 0x41, 0x4D, 0x45]

/-- fpcalc.py:136-151: the place of the first string, looked for in batches of 64 KiB. -/
def mp3String (file : Bytes) : Nat → Nat → Res (Option Nat)
  | 0, _ => .error .fuel
  | fuel + 1, current =>
    let part := readAt file current (0x10000 + 3)
    if part = [] then .ok none
    else
      match bfind mXing part, bfind mLAME part with
      | some a, some b => .ok (some (current + min a b))
      | some a, none => .ok (some (current + a))
      | none, some b => .ok (some (current + b))
      | none, none => mp3String file fuel (current + 0x10000)

/-- fpcalc.py:161-166: the index of the last byte FF that is not the last byte.  `next_byte` is the byte at the
index itself, which always passes the test. -/
def lastFF (stack : Bytes) : Int := pyRfind [0xFF] (stack.take (stack.length - 1))

/-- fpcalc.py:136-172: the data from the supposed last frame before the string on. -/
def fromString (file : Bytes) : Res Bytes := do
  let i ← mp3String file (file.length + 1) 0
  match i with
  | none => throw .valueError
  | some i => do
    let stack ← seekRead file ((i : Int) - 0x100) 0x100
    seekRead file ((i : Int) - (0x100 + lastFF stack)) (-1)

/-- fpcalc.py:115-172: what is written to the second file: first the data without tags, then from a string on. -/
def strippedData (left : Nat) (fs : FS) (path : Path) : Res Bytes :=
  match fs path with
  | none => .error .envError
  | some d => if left = 2 then stripTags d else fromString d

/-- fpcalc.py:52-74: a name that is not ASCII: work on a copy.  The name to use, and that of the copy. -/
def fpCopy (w : FpWorld) (fs : FS) (path : Path) : Res (Path × Option Path) × FS :=
  if asciiName path then (.ok (path, none), fs)
  else
    match w.temp fs (tempSuffix path) with
    | .error e => (.error e, fs)
    | .ok tmp =>
      let fs := fs.set tmp (some [])
      match fs path with
      | none => (.error .envError, fs)
      | some d => (.ok (tmp, some tmp), fs.set tmp (some d))

/-- fpcalc.py:185-187: remove the copy. -/
def fpClean (fs : FS) : Option Path → FS
  | none => fs
  | some tmp => fs.set tmp none

/-- What a run gives: the duration and the fingerprint or an exception, the files afterwards, and the contents of the files
that the program fpcalc is run on. -/
abbrev FpRun := Res (Bytes × Bytes) × FS × List (Option Bytes)

/-- fpcalc.py:76-192: the part after the copy.  `left` is 2 minus `recursive`, `again` is the recursive call. -/
def fpRest (w : FpWorld) (left : Nat) (again : FS → Path → FpRun) (fs : FS) (path : Path) (tmp : Option Path) : FpRun :=
  match fpParse (w.fpcalc fs path) with
  | some r => (.ok r, fpClean fs tmp, [fs path])
  | none =>
    if left = 0 then (.error .valueError, fs, [fs path])
    else
      match w.temp fs (tempSuffix path) with
      | .error e => (.error e, fs, [fs path])
      | .ok stripped =>
        match strippedData left (fs.set stripped (some [])) path with
        | .error e => (.error e, (fs.set stripped (some [])).set stripped none, [fs path])
        | .ok d =>
          match again ((fs.set stripped (some [])).set stripped (some d)) stripped with
          | (.error e, fs', log) => (.error e, fs'.set stripped none, fs path :: log)
          | (.ok r, fs', log) => (.ok r, fpClean (fs'.set stripped none) tmp, fs path :: log)

/-- fpcalc.py:43-192 `fingerprint`.  `left` is 2 minus `recursive`; with 0 there is no recursive call. -/
def fingerprint (w : FpWorld) : Nat → FS → Path → FpRun
  | 0, fs, path =>
    match fpCopy w fs path with
    | (.error e, fs) => (.error e, fs, [])
    | (.ok (path, tmp), fs) => fpRest w 0 (fun fs _ => (.error .fuel, fs, [])) fs path tmp
  | left + 1, fs, path =>
    match fpCopy w fs path with
    | (.error e, fs) => (.error e, fs, [])
    | (.ok (path, tmp), fs) => fpRest w (left + 1) (fingerprint w left) fs path tmp

end Rescene
