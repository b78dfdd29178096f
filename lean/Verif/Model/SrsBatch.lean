import Verif.Model.SrsExit
import Verif.Model.AutoStore
import Verif.Model.SrsFiles
/-
Where /repo/resample/srs.py puts the SRS of a sample, and /repo/bin/srs_batch.py, which makes the SRS of all videos in a folder.
-/
namespace Rescene

/-! ### The name of an SRS -/

/-- `s.rsplit(c, 1)` when `c` is in `s`. -/
def rsplitAt (c : Nat) (s : Str) : Option (Str × Str) :=
  match s.reverse.dropWhile (· != c) with
  | [] => none
  | _ :: b => some (b.reverse, (s.reverse.takeWhile (· != c)).reverse)

/-- The options about the name: `-o`, `--d`, `--dd` and `--ddd`. -/
structure SrsNameOpts where
  output : Str := []
  d : Bool := false
  dd : Bool := false
  ddd : Bool := false

/-- srs.py:227. -/
def mindMsg : Str := str "Make up your mind with the d's...\n"

/-- `os.path.exists`, for the text of a path. -/
def folderThere (exist : Path → Bool) (p : Path) : Bool := p ≠ [] && exist p

/-- srs.py:303 `options.output_dir[-4:].lower() == ".srs"`. -/
def namesSrs (lower : Str → Str) (o : SrsNameOpts) : Bool := lower (o.output.drop (o.output.length - 4)) == str ".srs"

/-- srs.py:299-309 `out_folder`. -/
def srsFolder (lower : Str → Str) (cwd : Str) (o : SrsNameOpts) (sample : Path) : Path :=
  if o.output ≠ [] then if namesSrs lower o then cwd else o.output
  else if o.ddd then
    match rsplitAt 0x2F (dirname sample) with
    | none => dirname sample
    | some (a, _) => a
  else cwd

/-- srs.py:316-325: the name without `.srs`. -/
def srsStem (o : SrsNameOpts) (sample : Path) : Except SrsBody Str :=
  if o.d then
    match rsplitAt 0x2F (dirname sample) with
    | none => .error (.raises .other (str "list index out of range"))
    | some (_, b) => .ok b
  else if o.dd then
    match rsplitAt 0x2F (dirname sample) with
    | none => .error (.raises .other (str "list index out of range"))
    | some (a, b) =>
      match rsplitAt 0x2F a with
      | none => .ok b
      | some (_, m) => .ok m
  else .ok (stem (basename sample))

/-- srs.py:315-325 `srs_name`. -/
def srsPath (lower : Str → Str) (cwd : Str) (o : SrsNameOpts) (sample : Path) : Except SrsBody Path :=
  if o.output ≠ [] ∧ namesSrs lower o = true then .ok o.output
  else
    match srsStem o sample with
    | .error e => .error e
    | .ok n => .ok (posixJoin2 (srsFolder lower cwd o sample) (n ++ str ".srs"))

/-- srs.py:224-227, 299-329: where the SRS of a sample is written, or how the command ends.  `sample` is the absolute path of
the sample and `cwd` the working folder. -/
def srsTarget (lower : Str → Str) (cwd : Str) (exist : Path → Bool) (o : SrsNameOpts) (sample : Path) : Except SrsBody Path :=
  if (o.d && o.dd) || (o.d && o.ddd) || (o.dd && o.ddd) then .error (.exits 1 mindMsg)
  else if folderThere exist (srsFolder lower cwd o sample) = false then .error (.exits 1 (folderMsg (srsFolder lower cwd o sample)))
  else
    match srsPath lower cwd o sample with
    | .error e => .error e
    | .ok p => if folderThere exist (dirname p) = false then .error (.exits 1 (folderMsg (dirname p))) else .ok p

/-! ### srs_batch.py -/

/-- A file under the input folder: the path of its folder from there (`.` for the input folder itself), its name and
contents. -/
structure BatchFile where
  sub : Str
  name : Str
  data : Bytes

/-- srs_batch.py:50-51. -/
def batchExts : List Str := [str ".avi", str ".mkv", str ".wmv", str ".mp4", str ".vob", str ".m2ts"]

/-- srs_batch.py:50-51. -/
def isBatchVideo (lower : Str → Str) (f : BatchFile) : Bool := batchExts.any fun e => endsWith (lower f.name) e

/-- The surroundings of a run: the input folder, the fingerprints of music, the texts of exceptions, sizes as text, what
`traceback.print_exc()` writes for a file, and the encoding of texts. -/
structure BatchWorld where
  app : Str
  indir : Str
  fp : BatchFile → Option (Nat × Bytes) := fun _ => none
  fpFails : BatchFile → Option (SrsExc × Str) := fun _ => none
  text : Err → Str := fun _ => []
  size : BatchFile → Str
  trace : BatchFile → Bytes := fun _ => []
  enc : Str → Bytes

/-- srs_batch.py:54-67: the call of srs with `-y -o dest_dir`.  Simplified: no folder of the output has a name that ends with
`.srs`. -/
def BatchWorld.call (w : BatchWorld) (f : BatchFile) : SrsCall :=
  { app := w.app
    path := posixJoin2 (posixJoin2 w.indir f.sub) f.name
    sample := f.data
    fp := w.fp f
    fpFails := w.fpFails f
    text := w.text
    size := w.size f }

/-- srs_batch.py:67-68 with `-n`: the arguments of srs are the sample and an empty text, which srs.py:235-271 takes for a second
input file. -/
def BatchWorld.keepBody (dig : Nat → Bool) (lower : Str → Str) (w : BatchWorld) (f : BatchFile) : SrsBody :=
  match MediaFile.kind dig lower ⟨(w.call f).path, f.data, none⟩ with
  | .error e => .raises (excOf e) (w.text e)
  | .ok .unknown => .exits 1 (unknownMsg (basename (w.call f).path) (w.size f))
  | .ok _ => .exits 1 (str "Input file not found: \n")

/-- srs_batch.py:66-70: how the call ends. -/
def BatchWorld.fin (dig : Nat → Bool) (lower : Str → Str) (w : BatchWorld) (keep : Bool) (f : BatchFile) : MainEnd :=
  mainEnd true (if keep then w.keepBody dig lower f else srsMakeBody dig lower (w.call f))

/-- The output folder: the contents of files by folder and name. -/
abbrev OutTree := Str × Str → Option Bytes

def OutTree.put (t : OutTree) (k : Str × Str) (c : Option Bytes) : OutTree := fun x => if x = k then c else t x

/-- srs.py:323-324 in the folder of srs_batch.py:56. -/
def BatchFile.srs (f : BatchFile) : Str × Str := (f.sub, stem f.name ++ str ".srs")

/-- srs_batch.py:63. -/
def BatchFile.txt (f : BatchFile) : Str × Str := (f.sub, f.name ++ str ".txt")

/-- srs_batch.py:54-76 `create_srs`.  The error texts of srs go to the text file; so does the traceback of an exception that is not
caught (the text is closed with the process). -/
def batchOne (dig : Nat → Bool) (lower : Str → Str) (w : BatchWorld) (keep : Bool) (f : BatchFile) (t : OutTree) : OutTree × Except SrsExc Unit :=
  match w.fin dig lower keep f with
  | .returned =>
    match srsMake dig lower w.app (w.call f).path f.data (w.fp f) false none with
    | .ok s => ((t.put f.srs (some s)).put f.txt none, .ok ())
    | .error _ => (t.put f.txt none, .ok ())
  | .raised .value msg => (t.put f.txt (some (w.trace f ++ w.enc (msg ++ str "\n"))), .ok ())
  | .raised c _ => (t.put f.txt (some (w.trace f)), .error c)
  | .exited _ => (t.put f.txt (some (w.trace f)), .error .other)

/-- srs_batch.py:46-52: the files in the order of the walk. -/
def batchAll (dig : Nat → Bool) (lower : Str → Str) (w : BatchWorld) (keep : Bool) : List BatchFile → OutTree → OutTree × Except SrsExc Unit
  | [], t => (t, .ok ())
  | f :: l, t =>
    if isBatchVideo lower f then
      match batchOne dig lower w keep f t with
      | (t, .error c) => (t, .error c)
      | (t, .ok ()) => batchAll dig lower w keep l t
    else batchAll dig lower w keep l t

end Rescene
