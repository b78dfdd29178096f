import Verif.Model.Create
import Verif.Model.Repack
import Verif.Model.Extract
import Verif.Model.Glob
/-
Reconstruction of volumes: /repo/rescene/main.py:1184-1390, 1453-1506.
-/
namespace Rescene

/-- The arguments of `reconstruct`, and what it depends on: the answers of the application when
a file exists, `os.path.abspath`, the files under `in_folder` in the order of `os.walk`, and the
packed data of a compressed file (`get_rar_data_object`, main.py:1723-1728, which runs RAR
executables). -/
structure RecArgs where
  srr : Path
  inFolder : Str
  outFolder : Str
  extractPaths : Bool
  hints : List (Str × Str)
  skipCrc : Bool
  autoLocate : Bool
  empty : Bool
  extractFiles : Bool
  part : Str
  ask : Path → Bool
  abspath : Str → Str
  walk : FS → List Path
  compress : FileFields → Bytes → Res Bytes

/-- The variables of `reconstruct`; `out` is the volume that is open for writing and `reports`
collects the messages of `_repack`. -/
structure RecState where
  fs : FS
  rarName : Str := []
  out : Option Path := none
  srcName : Option Str := none
  src : Option Src := none
  rebuild : Bool := false
  running : BitVec 32 := 0
  skipVolume : Bool := false
  skipOffset : Nat := 0
  partialSet : Bool := false
  reports : List CrcReport := []

/-- `rarfs.write(b)`: AttributeError when no volume is open. -/
def RecState.write (s : RecState) (b : Bytes) : Res RecState :=
  match s.out with
  | none => .error .attrError
  | some p => .ok { s with fs := appendTo s.fs p b }

/-- main.py:1493-1506 `_auto_locate_renamed`: the first file with the same extension and size. -/
def autoLocate (a : RecArgs) (fs : FS) (name : Str) (size : Nat) : Option Path :=
  (a.walk fs).find? fun p =>
    fnmatch (basename p) (0x2A :: extOf name) && (match fs p with | some d => d.length == size | none => false)

/-- main.py:1465-1467: the name on disk: the hint, or the name in the archive. -/
def hintedName (a : RecArgs) (f : FileFields) : Res Str :=
  match a.hints.lookup f.name with
  | some h => .ok h
  | none => osFileNameRar f.name

/-- main.py:1464-1475: where the file is. -/
def locatePath (a : RecArgs) (fs : FS) (f : FileFields) : Res Path := do
  let src ← hintedName a f
  let src := a.abspath (posixJoin2 a.inFolder src)
  if (fs src).isNone then do
    let src ← (if a.autoLocate then do
        let n ← osFileNameRar f.name
        return (autoLocate a fs n f.unpackedSize).getD src
      else .ok src : Res Path)
    if (fs src).isNone then throw .fileNotFound else return src
  else return src

/-- main.py:1453-1491 `_locate_file`: the contents of the file found. -/
def locateFile (a : RecArgs) (fs : FS) (f : FileFields) : Res Bytes := do
  let p ← locatePath a fs f
  match fs p with
  | none => throw .fileNotFound
  | some d =>
    if d.length ≠ f.unpackedSize ∧ f.unpackedSize ≠ 4294967295 ∧ f.unpackedSize ≠ 18446744073709551615 then
      throw .badSize
    else return d

/-- main.py:1322-1337: the data for a file that is not a directory. -/
def sourceData (a : RecArgs) (fs : FS) (f : FileFields) : Res Bytes := do
  let d ← locateFile a fs f
  if f.method ≠ 0x30 then a.compress f d else return d

/-- main.py:1316-1345: opening the source of a file. -/
def openSource (a : RecArgs) (fs : FS) (flags : Nat) (f : FileFields) : Res Src :=
  if flags &&& 0xE0 = 0xE0 then .ok (.fake ⟨f.unpackedSize, 0⟩)
  else
    match sourceData a fs f with
    | .ok d => .ok (.file d 0)
    | .error .fileNotFound => if a.empty then .ok (.fake ⟨f.unpackedSize, 0⟩) else .error .fileNotFound
    | .error e => .error e

/-- main.py:1250-1259: is the volume left out? -/
def skipped (a : RecArgs) (name : Str) : Bool :=
  let skip := a.part ≠ [] ∧ endsWith name a.part = false
  let wild := a.part ≠ [] ∧ endsWith a.part [0x2A] = true ∧ a.part.dropLast.isPrefixOf name = true
  decide (skip ∧ ¬ wild)

/-- main.py:1255-1259: does the volume belong to a subset given by a wildcard? -/
def inSubset (a : RecArgs) (name : Str) : Bool :=
  decide (a.part ≠ []) && endsWith a.part [0x2A] && a.part.dropLast.isPrefixOf name

/-- main.py:1245-1283: a RAR-file block.  `false` when the user refuses to overwrite. -/
def recVolume (a : RecArgs) (s : RecState) (b : Block) (name : Str) : Res (RecState × Bool) := do
  let s := { s with skipVolume := skipped a name, partialSet := s.partialSet || inSubset a name }
  if s.rarName ≠ name ∧ s.skipVolume = false then do
    let s := { s with rebuild := hasFlag b.flags 1, rarName := name }
    let out ← opath name a.extractPaths a.outFolder
    if (s.fs out).isNone || a.ask out then
      return ({ s with fs := s.fs.set out (some []), out := some out }, true)
    else return (s, false)
  else return (s, true)

/-- main.py:1284-1292: a recovery record of a volume that is not left out. -/
def recRecovery (s : RecState) (b : Block) : Res RecState := do
  let (rs, ds) ← recSectorsOf b
  if rs > 0 ∧ s.rebuild = true then
    match s.out with
    | none => throw .attrError
    | some p => do
      let more ← writeRecoveryRecord b.raw rs ds ((s.fs p).getD [])
      s.write more
  else s.write b.raw

/-- main.py:1294-1302: a file of a volume that is left out. -/
def recSkipFile (s : RecState) (f : FileFields) : RecState :=
  { s with
    skipOffset := if s.srcName ≠ some f.name then f.packedSize else s.skipOffset + f.packedSize
    srcName := some f.name
    running := 0 }

/-- main.py:1311-1345: the right source is open. -/
def recOpen (a : RecArgs) (s : RecState) (flags : Nat) (f : FileFields) : Res RecState :=
  if s.srcName ≠ some f.name ∨ (a.part ≠ [] ∧ s.partialSet = false) then do
    let src ← openSource a s.fs flags f
    return { s with srcName := some f.name, running := 0, src := some src }
  else .ok s

/-- main.py:1346-1354: the packed data. -/
def recData (a : RecArgs) (s : RecState) (flags : Nat) (f : FileFields) : Res RecState :=
  match s.src with
  | none => .error .assertError
  | some src => do
    let src ← (if a.part ≠ [] ∧ s.partialSet = false then src.seek s.skipOffset else .ok src : Res Src)
    let (data, src, running, reports) ← repack flags f src s.running a.skipCrc
    let s ← s.write data
    return { s with src := some src, running := running, reports := s.reports ++ reports }

/-- main.py:1293-1354: a packed file. -/
def recFile (a : RecArgs) (s : RecState) (b : Block) (f : FileFields) : Res RecState :=
  if s.skipVolume = true then .ok (recSkipFile s f)
  else do
    let s ← s.write b.raw
    let s ← recOpen a s b.flags f
    recData a s b.flags f

/-- main.py:1240-1244: a stored file. -/
def recStored (a : RecArgs) (s : RecState) (b : Block) : Res RecState :=
  if a.extractFiles then
    match b.kind with
    | .stored _ name => do
      let out ← opath name a.extractPaths a.outFolder
      match extractOne a.srr a.ask b out s.fs with
      | (_, .error e) => throw e
      | (fs, .ok _) => return { s with fs := fs }
    | _ => .error .attrError
  else .ok s

/-- main.py:1284-1380: the blocks of a volume. -/
def recOther (a : RecArgs) (s : RecState) (b : Block) : Res RecState := do
  let r ← isRecBlock b
  if r = true ∧ s.skipVolume = false then recRecovery s b
  else if b.btype = 0x74 then
    match b.kind with
    | .packed f => recFile a s b f
    | _ => throw .attrError
  else if (0x72 ≤ b.btype ∧ b.btype ≤ 0x7B) ∨ (b.btype = 0 ∧ b.hsize = 20) then
    if s.skipVolume = false then s.write b.raw else return s
  else if b.btype = 0x6B then return s
  else if b.btype = 0x6C then
    if s.skipVolume = false then s.write (b.raw.drop b.hsize) else return s
  else return s

/-- main.py:1235-1380: the body of the loop.  The messages are not modelled. -/
def recBlock (a : RecArgs) (s : RecState) (b : Block) : Res (RecState × Bool) :=
  if b.btype = 0x69 then
    match b.kind with
    | .srrHeader _ => .ok (s, true)
    | _ => .error .attrError
  else if b.btype = 0x6A then do
    let s ← recStored a s b
    return (s, true)
  else if b.btype = 0x71 then
    match b.kind with
    | .rarFile name => recVolume a s b name
    | _ => .error .attrError
  else do
    let s ← recOther a s b
    return (s, true)

/-- main.py:1235-1380: the loop; `false` when the operation is aborted. -/
def recLoop (a : RecArgs) : RecState → List Block → Res (RecState × Bool)
  | s, [] => .ok (s, true)
  | s, b :: t => do
    let (s, go) ← recBlock a s b
    if go then recLoop a s t else return (s, false)

/-- main.py:1184-1390 `reconstruct`: the files, the reports and whether it was not aborted.
What is on disk after an exception is not modelled, nor is the cleanup of temporary files of
compressed reconstruction. -/
def reconstruct (a : RecArgs) (fs : FS) : Res (FS × List CrcReport × Bool) :=
  match fs a.srr with
  | none => .error .envError
  | some data => do
    let blocks ← readAll data
    let (s, go) ← recLoop a { fs := fs } blocks
    return (s.fs, s.reports, go)

end Rescene
