import Verif.Model.Inputs
import Verif.Model.Compression
/-
Creating an SRR from open handles (files posted on Usenet): /repo/rescene/main.py:642-881, 883-959,
1601-1613.
-/
namespace Rescene

/-- A file that is read through a handle (`NNTPFile`, usenet/srr_usenet.py:304-1060): its name, what its
downloads give (phase 0 is the reading of the SFV or of the first volume for its naming style, phase 1 the
reading for the SRR; the number is the attempt), what `file_size()` says (the size in the yEnc header) and
whether the server has its last segment (`stat_last_segment`).  Simplified: `init_data` does not fail. -/
structure Posted where
  name : Str
  got : Nat → Nat → Res Bytes
  size : Nat
  last : Bool

/-- `allfiles`: the handles by name, in the order of the dictionary. -/
abbrev Handles := List (Str × Posted)

/-- `allfiles[k]`. -/
def handleOf (all : Handles) (k : Str) : Option Posted := (all.find? fun kv => kv.1 == k).map (·.2)

/-- main.py:655: the exceptions after which the file is downloaded again.  `nntplib.NNTPTemporaryError` of
a handle is an `envError` here. -/
def downloadAgain : Err → Bool
  | .envError => true
  | .indexError => true
  | _ => false

/-- main.py:642-684 `_rarreader_usenet` on a handle. -/
def readPosted (retries phase : Nat) (p : Posted) : Res (List Block) :=
  rarreaderUsenet downloadAgain (fun _ => .ok ()) (fun k => do readAll (← p.got phase k)) retries

/-- One of `infiles`: a handle (the SFV files) or the name of a handle (the first volumes).  These are the
ways usenet/srr_usenet.py:1260, 1274 calls it. -/
inductive FhIn where
  | handle (p : Posted)
  | name (n : Str)

/-- main.py:883-907 `_handle_sfv` on a handle: the names in the SFV file, without a folder. -/
def handleSfvFh (w : World) (data : Bytes) : Res (List Str) :=
  let entries := (parseSfvData data).entries
  if entries = [] then .error .valueError
  else .ok (((filterSfvDuplicates w.lower w.sort entries).filter fun e => isRar w.dig e.fileName).map fun e => e.fileName)

/-- main.py:909-959 `_handle_rar` on a handle, with `filelist`. -/
def handleRarFh (w : World) (fuel retries : Nat) (all : Handles) (p : Posted) : Res (List Str) := do
  let blocks ← readPosted retries 0 p
  if firstRars w.dig w.lower [p.name] ≠ [p.name] then throw .valueError
  else volumesFrom w.dig (fun q => if (handleOf all (basename q)).isSome then some [] else none) (oldNaming blocks) fuel p.name

/-- main.py:733-746: one of the input files.  A handle that is no SFV file cannot be a key of the dictionary
(`__hash__ = None`: TypeError).  Simplified: a name that ends with .sfv, a file on disk, is not modelled. -/
def collectFhOne (w : World) (fuel retries : Nat) (all : Handles) : FhIn → Res (List Str)
  | .handle p =>
    if endsWith (w.lower p.name) (str ".sfv") then do
      let data ← p.got 0 0
      handleSfvFh w data
    else .error .typeError
  | .name n =>
    if endsWith (w.lower n) (str ".sfv") then .error .other
    else match handleOf all n with
      | none => .error .keyError
      | some p => handleRarFh w fuel retries all p

/-- main.py:731-746: the list `rarfiles`. -/
def collectFh (w : World) (fuel retries : Nat) (all : Handles) : List FhIn → Res (List Str)
  | [] => .ok []
  | f :: t => do
    let a ← collectFhOne w fuel retries all f
    let b ← collectFh w fuel retries all t
    return a ++ b

/-- main.py:753-775: every volume must be among the handles, with other capitals if need be. -/
def findVolumes (lower : Str → Str) : Handles → List Str → Res Handles
  | all, [] => .ok all
  | all, r :: t =>
    if (handleOf all r).isSome then findVolumes lower all t
    else match all.find? fun kv => kv.1 == lower r || lower kv.1 == r with
      | some kv => findVolumes lower (all ++ [(r, kv.2)]) t
      | none => .error .fileNotFound

/-- main.py:1601-1613 `_store_fh`: a file that cannot be read is skipped. -/
def storeFh (p : Posted) : Bytes :=
  let r : Res Bytes := do
    let data ← p.got 1 0
    let h ← mkStored p.name p.size
    return h ++ data
  match r with
  | .ok b => b
  | .error _ => []

/-- main.py:786: the files to store; the SFV files of the input come last. -/
def storeListFh (lower : Str → Str) (infiles : List FhIn) (storeFiles : List Posted) : List Posted :=
  storeFiles ++ infiles.filterMap fun f => match f with
    | .handle p => if lower (p.name.drop (p.name.length - 4)) == str ".sfv" then some p else none
    | .name _ => none

/-- main.py:798-807 `test_end_segments`.  `stat` only decides about a message.  RuntimeError is `other`. -/
def testEndSegments (all : Handles) : List Str → Res Unit
  | [] => .ok ()
  | r :: t =>
    match handleOf all r with
    | none => .error .keyError
    | some p => if p.last then testEndSegments all t else .error .other

/-- main.py:822-850: what is done with a block before it is written; `tested` is `end_segments_tested`.
The other tests are those of `create_srr` with compressed archives allowed. -/
def fhBlock (all : Handles) (rars : List Str) (tested : Bool) (b : Block) : Res Bool := do
  let _ ← createBlock true [] [] b
  if !tested && b.btype == 0x7B then do
    let _ ← testEndSegments all rars
    return true
  else return tested

/-- main.py:822-853: the blocks of one volume. -/
def fhBlocks (all : Handles) (rars : List Str) : Bool → List Block → Res (Bytes × Bool)
  | tested, [] => .ok ([], tested)
  | tested, b :: t => do
    let tested ← fhBlock all rars tested b
    let (more, tested) ← fhBlocks all rars tested t
    return (b.raw ++ more, tested)

/-- main.py:813-853: the loop over the volumes. -/
def fhVolumes (retries : Nat) (all : Handles) (rars : List Str) : Bool → List Str → Res Bytes
  | _, [] => .ok []
  | tested, r :: t =>
    match handleOf all r with
    | none => .error .keyError
    | some p => do
      let hdr ← mkRarFile p.name
      let blocks ← readPosted retries 1 p
      let (raws, tested) ← fhBlocks all rars tested blocks
      let more ← fhVolumes retries all rars tested t
      return hdr ++ (raws ++ more)

/-- main.py:730-859: what is written after the SRR header.  `allfiles` is not empty: without handles the
function cannot work (main.py:743, 815). -/
def fhBody (w : World) (fuel retries : Nat) (all : Handles) (infiles : List FhIn) (storeFiles : List Posted) : Res Bytes := do
  let rars ← collectFh w fuel retries all infiles
  if rars = [] then throw .valueError
  else do
    let all ← findVolumes w.lower all rars
    let v ← fhVolumes retries all rars false rars
    return ((storeListFh w.lower infiles storeFiles).map storeFh).flatten ++ v

/-- main.py:686-881 `create_srr_fh`: the files afterwards and how it ended.  `_stat` is the argument `stat`.
`os.makedirs("")` fails.  Simplified: folders can be made and the SRR can be opened and written. -/
def createFh (w : World) (fuel retries : Nat) (_stat : Bool) (fs : FS) (app : Str) (srr : Path) (infiles : List FhIn) (all : Handles)
    (storeFiles : List Posted) : FS × Res Unit :=
  if infiles = [] then (fs, .error .valueError)
  else if dirname srr = [] then (fs, .error .envError)
  else match mkSrrHeader app with
    | .error e => (fs.set srr (some []), .error e)
    | .ok h => match fhBody w fuel retries all infiles storeFiles with
      | .ok b => (fs.set srr (some (h ++ b)), .ok ())
      | .error e => (fs.set srr none, .error e)

end Rescene
