import Verif.Model.SrrCommand
import Verif.Model.Reconstruct
/-
What the command `srr` does with its options: /repo/rescene/srr.py.
-/
namespace Rescene

/-- srr.py:412-534: the options.  `regex` is what `re.compile(options.extract_regex, re.IGNORECASE).match` tells about a name, `some none`
when the expression cannot be compiled. -/
structure SrrOpts where
  listInfo : Bool := false
  listDetails : Bool := false
  verify : Bool := false
  autoLocate : Bool := false
  extract : Bool := false
  regex : Option (Option (Str → Bool)) := none
  parent : Bool := false
  paths : Bool := false
  output : Option Str := none
  inputBase : Option Str := none
  storeFiles : List Str := []
  hints : Str := []
  noAutoCrc : Bool := false
  fake : Bool := false
  rarDir : Option Str := none
  tempDir : Option Str := none
  volume : Option Str := none

/-- What is outside: the working directory, the answers of `can_overwrite` for files that exist, `os.path.abspath`, the paths that
`os.walk` gives, what RAR executables make, whether there are any in a folder, whether a folder exists, printing the details, and
adding files to an SRR. -/
structure SrrEnv where
  lower : Str → Str
  upper : Str → Str
  work : Str
  ask : Path → Bool
  abspath : Str → Str
  walk : Str → FS → List Path
  compress : FileFields → Bytes → Res Bytes
  hasRars : Str → Bool
  isDir : Str → Bool
  details : Bytes → Res Unit
  store : Path → List Str → Str → Bool → FS → FS × Res Unit

/-- srr.py:301-304: one hint. -/
def hintOf (h : Str) : Option (Str × Str) :=
  match splitOn 0x3A h with
  | [a, b] => some (a, b)
  | _ => none

/-- srr.py:299-306: the hints, the last one of a name first; `none` for an invalid one. -/
def hintsOf (s : Str) : Option (List (Str × Str)) :=
  if s = [] then some [] else ((splitOn 0x3B s).mapM hintOf).map List.reverse

/-- The exit status for an exception: srr.py:613-615. -/
def unexpected : Nat := 99

/-- srr.py:208-211. -/
def outFolderOf (e : SrrEnv) (o : SrrOpts) : Str :=
  match o.output with
  | some d => if d = [] then e.work else d
  | none => e.work

/-- srr.py:583-585. -/
def inFolderOf (e : SrrEnv) (o : SrrOpts) : Str :=
  match o.inputBase with
  | some d => if d = [] then e.work else d
  | none => e.work

/-- srr.py:237-239 and 263-265: the folder for extracted files. -/
def extractFolder (e : SrrEnv) (o : SrrOpts) (srr : Path) : Str :=
  if o.parent then posixJoin2 (outFolderOf e o) ((basename srr).take ((basename srr).length - (extOf (basename srr)).length)) else outFolderOf e o

/-- srr.py:241-252 and 270-284: the status after extracting. -/
def extractStatus : FS × Res (List (Path × Bool)) → Option FS × Nat
  | (fs, .ok l) => (some fs, if l.all (·.2) then 0 else 1)
  | (fs, .error _) => (some fs, unexpected)

/-- srr.py:313-318: the arguments of `reconstruct`. -/
def recArgsOf (e : SrrEnv) (o : SrrOpts) (srr : Path) (hints : List (Str × Str)) : RecArgs :=
  { srr := srr, inFolder := inFolderOf e o, outFolder := outFolderOf e o, extractPaths := o.paths, hints := hints, skipCrc := o.noAutoCrc,
    autoLocate := o.autoLocate, empty := o.fake, extractFiles := o.volume.isNone, part := o.volume.getD [], ask := e.ask, abspath := e.abspath,
    walk := e.walk (inFolderOf e o), compress := e.compress }

/-- main.py:1223-1231: is there a folder for RAR executables without any in it? -/
def noRars (e : SrrEnv) (o : SrrOpts) : Bool :=
  match o.rarDir with
  | some d => d ≠ [] && !e.hasRars d
  | none => false

/-- srr.py:294-332: rebuilding.  `reconstruct` gives `False` when there are no RAR executables in the folder (main.py:1223-1231) and
-1 when the user does not want to overwrite; nothing looks at what it gives.  What is on disk after an exception is not modelled (`none`). -/
def rebuildSrr (e : SrrEnv) (o : SrrOpts) (srr : Path) (fs : FS) : Option FS × Nat :=
  match hintsOf o.hints with
  | none => (some fs, 1)
  | some hints =>
    if noRars e o then (some fs, 0)
    else
      match reconstruct (recArgsOf e o srr hints) fs with
      | .ok (fs', _, _) => (some fs', 0)
      | .error .fileNotFound => (none, 1)
      | .error .rarNotSupported => (none, 1)
      | .error .emptyRepo => (none, 1)
      | .error _ => (none, unexpected)

/-- srr.py:207-332 `manage_srr`: the files and the exit status. -/
def manageSrr (e : SrrEnv) (o : SrrOpts) (srr : Path) (fs : FS) : Option FS × Nat :=
  let data := (fs srr).getD []
  if o.listInfo then (some fs, match info e.lower e.upper data with | .ok _ => 0 | .error _ => unexpected)
  else if o.listDetails then (some fs, match e.details data with | .ok _ => 0 | .error _ => unexpected)
  else if o.verify then
    (some fs, match verifyExtracted e.lower e.upper data fs (e.walk (inFolderOf e o) fs) (inFolderOf e o) o.autoLocate with | .ok s => s | .error _ => unexpected)
  else if o.extract then extractStatus (extractFiles srr e.ask ⟨extractFolder e o srr, o.paths, [], none⟩ fs)
  else
    match o.regex with
    | some none => (some fs, 1)
    | some (some m) => extractStatus (extractFiles srr e.ask ⟨extractFolder e o srr, o.paths, [], some m⟩ fs)
    | none =>
      if o.storeFiles ≠ [] then
        match e.store srr o.storeFiles (inFolderOf e o) o.paths fs with
        | (fs', .ok _) => (some fs', 0)
        | (fs', .error _) => (some fs', unexpected)
      else rebuildSrr e o srr fs

/-- srr.py:569-581: is something wrong with the input files? -/
def badInput (e : SrrEnv) (fs : FS) (f : Path) : Bool :=
  (fs f).isNone || !([str ".srr", str ".sfv", str ".rar"].contains (e.lower (f.drop (f.length - 4))))

/-- srr.py:547-548: is the folder for temporary files missing? -/
def noTemp (e : SrrEnv) (o : SrrOpts) : Bool :=
  match o.tempDir with
  | some d => d ≠ [] && !e.isDir d
  | none => false

/-- srr.py:543-592 `main`, after the options are read; `create` is what comes of making an SRR (`srr.py:334-397`). -/
def srrMain (e : SrrEnv) (o : SrrOpts) (create : List Path → FS → Option FS × Nat) (infiles : List Path) (fs : FS) : Option FS × Nat :=
  if noTemp e o then (some fs, 1)
  else if o.extract && o.regex.isSome then (some fs, 1)
  else if infiles.any (badInput e fs) then (some fs, 1)
  else
    match infiles with
    | [] => (some fs, 1)
    | f :: _ => if endsWith f (str ".srr") then manageSrr e o f fs else create infiles fs

end Rescene
