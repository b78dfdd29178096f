import Verif.Model.Create
import Verif.Model.Sfv
import Verif.Model.Volumes
import Verif.Model.Glob
import Verif.Model.SrsFiles
/-
From the files given to `create_srr` to the volumes and stored files of the SRR:
/repo/rescene/main.py:490-538, 642-684, 883-959, 1569-1599 and /repo/rescene/utility.py:531-566.
-/
namespace Rescene

/-- What `create_srr` knows about the outside: Python's tables and `sorted`, the working directory, the
folders (`os.listdir`; `none`: OSError; the empty path is the working directory) and all paths for
`glob`. -/
structure World where
  dig : Nat → Bool
  lower : Str → Str
  sort : List SfvEntry → List SfvEntry
  cwd : Str
  listdir : Str → Option (List Str)
  all : List Str

/-- utility.py:548-549: the entry of the folder that is the file, up to case. -/
def sameNameIn (lower : Str → Str) (isFile : Path → Bool) (dir fn : Str) (names : List Str) : Option Str :=
  names.find? fun c => lower c == lower fn && isFile (posixJoin2 dir c)

/-- utility.py:531-566 `capitalized_fn`: path on disk, path with capitals.  Simplified: the working
directory is not written as `./` in front of names (which is undone by `basename` and `relpath`). -/
def capitalizedFn (lower : Str → Str) (listdir : Str → Option (List Str)) (isFile : Path → Bool) (afile : Path) : Res (Path × Path) :=
  let fn := basename afile
  let dir := dirname afile
  match listdir dir with
  | none => .error .envError
  | some names =>
    let exact := match sameNameIn lower isFile dir fn names with
      | some c => posixJoin2 dir c
      | none => afile
    let actual := basename exact
    let capitals :=
      if lower actual = actual then posixJoin2 dir fn
      else if lower fn = fn then posixJoin2 dir actual
      else afile
    .ok (exact, capitals)

/-- main.py:883-900 `_handle_sfv`, on the contents of the SFV file.  EmptySfv is a ValueError. -/
def handleSfv (w : World) (sfile : Path) (data : Bytes) : Res (List Path) :=
  let entries := (parseSfvData data).entries
  if entries = [] then .error .valueError
  else .ok (((filterSfvDuplicates w.lower w.sort entries).filter fun e => isRar w.dig e.fileName).map
    fun e => posixJoin2 (dirname sfile) e.fileName)

/-- main.py:642-684 `_rarreader_usenet` for a path.  An EnvironmentError or IndexError while reading the
blocks leads to `rarfile.init_data`, which a path does not have.  `nntplib` is there: without it the
program ends (main.py:645-650). -/
def readFirst (data : Bytes) : Res (List Block) := do
  let mode ← openReader data
  match readLoop mode data (data.length + 1) RState.init with
  | .ok t => .ok (t.map (·.1))
  | .error .envError => .error .attrError
  | .error .indexError => .error .attrError
  | .error e => .error e

/-- main.py:931-951: `is_old_style_naming`, from the last volume header with the flag VOLUME. -/
def oldNaming (blocks : List Block) : Bool :=
  blocks.foldl (fun old b => if b.btype = 0x73 ∧ hasFlag b.flags 1 = true then !hasFlag b.flags 0x10 else old) false

/-- main.py:956-959: the volumes that exist, from this one on. -/
def volumesFrom (dig : Nat → Bool) (fs : FS) (isOld : Bool) : Nat → Path → Res (List Path)
  | 0, _ => .error .fuel
  | fuel + 1, p =>
    if (fs p).isSome then do
      let q ← nextArchive dig p isOld
      let more ← volumesFrom dig fs isOld fuel q
      return p :: more
    else .ok []

/-- main.py:909-959 `_handle_rar` on a path. -/
def handleRar (w : World) (fs : FS) (fuel : Nat) (rfile : Path) : Res (List Path) :=
  match fs rfile with
  | none => .error .envError
  | some data => do
    let blocks ← readFirst data
    if firstRars w.dig w.lower [rfile] ≠ [rfile] then throw .valueError
    else volumesFrom w.dig fs (oldNaming blocks) fuel rfile

/-- main.py:511-518: one of the input files. -/
def collectOne (w : World) (fs : FS) (fuel : Nat) (infile : Path) : Res (List Path) :=
  if endsWith (w.lower infile) (str ".sfv") then
    match fs infile with
    | none => .error .envError
    | some data => handleSfv w infile data
  else handleRar w fs fuel infile

/-- main.py:509-518: the list `rarfiles`. -/
def collect (w : World) (fs : FS) (fuel : Nat) : List Path → Res (List Path)
  | [] => .ok []
  | f :: t => do
    let a ← collectOne w fs fuel f
    let b ← collect w fs fuel t
    return a ++ b

/-- `posixpath.abspath`. -/
def abspath (cwd p : Str) : Str := normpath (if p.head? = some 0x2F then p else posixJoin2 cwd p)

/-- `[x for x in path.split("/") if x]`. -/
def pathParts (p : Str) : List Str := (splitOn 0x2F p).filter (· ≠ [])

/-- The length of the common prefix of two lists. -/
def commonLength : List Str → List Str → Nat
  | a :: s, b :: t => if a = b then commonLength s t + 1 else 0
  | _, _ => 0

/-- `posixpath.relpath(path, start)`. -/
def relpath (cwd path start : Str) : Res Str :=
  if path = [] then .error .valueError
  else
    let s := pathParts (abspath cwd start)
    let p := pathParts (abspath cwd path)
    let i := commonLength s p
    let rel := List.replicate (s.length - i) [0x2E, 0x2E] ++ p.drop i
    .ok (if rel = [] then [0x2E] else joinWith 0x2F rel)

/-- main.py:527-528, 1571-1590: the name of a volume or of a stored file in the SRR.  The test for `..`
(main.py:1583) compares text with bytes: it is never true in Python 3. -/
def srrName (w : World) (savePaths : Bool) (inFolder : Str) (p : Path) : Res Str :=
  if savePaths then relpath w.cwd p inFolder else .ok (basename p)

/-- main.py:522-528: a volume with the names of `capitalized_fn`. -/
def rarInput (w : World) (fs : FS) (savePaths : Bool) (inFolder : Str) (rar : Path) : Res RarIn := do
  let (exact, capitals) ← capitalizedFn w.lower w.listdir (fun p => (fs p).isSome) rar
  if (fs exact).isNone then throw .fileNotFound
  else do
    let name ← srrName w savePaths inFolder capitals
    return ⟨rar, exact, name⟩

/-- main.py:502: the files to store; the SFV files of the input come last. -/
def storeList (w : World) (infiles storeFiles : List Path) : List Path :=
  storeFiles ++ infiles.filter fun f => w.lower (f.drop (f.length - 4)) == str ".sfv"

/-- main.py:504-505: the stored files with their names. -/
def storedInput (w : World) (fs : FS) (savePaths : Bool) (inFolder : Str) (infiles storeFiles : List Path) :
    Res (List (Str × Path)) :=
  (search w.all (fun p => (fs p).isSome) (storeList w infiles storeFiles) inFolder).mapM fun p => do
    let name ← srrName w savePaths inFolder p
    return (name, p)

/-- main.py:452-586 `create_srr`, from the arguments to the contents of the SRR.  Simplified: names are
all determined before the first volume is read, which changes at most which exception is raised. -/
def createFrom (w : World) (fuel : Nat) (fs : FS) (app : Str) (infiles : List Path) (inFolder : Str) (storeFiles : List Path)
    (savePaths compressed oso : Bool) : Res Bytes := do
  let stored ← storedInput w fs savePaths inFolder infiles storeFiles
  let rars ← collect w fs fuel infiles
  let vols ← rars.mapM (rarInput w fs savePaths inFolder)
  createSrr w.dig w.lower fuel fs app stored vols compressed oso

end Rescene
