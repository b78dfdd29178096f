import Verif.Model.Edit
/-
Extraction of stored files: /repo/rescene/main.py:149-238.
-/
namespace Rescene

/-- The arguments of `extract_files`: output folder, whether to keep paths, the name
asked for (empty for all), and the matcher. -/
structure ExtractArgs where
  outFolder : Str
  extractPaths : Bool
  packedName : Str
  matcher : Option (Str → Bool)

/-- main.py:186-190: is the file with this name, this output path and this
`os_file_name()` selected? -/
def isSelected (a : ExtractArgs) (name out osName : Str) : Bool :=
  (a.packedName == [] && a.matcher.isNone) ||
  (a.packedName == [] && (match a.matcher with | some m => m name | none => false)) ||
  (a.packedName == basename a.packedName && basename a.packedName == basename out) ||
  normpath a.packedName == osName

/-- main.py:213-238 `_extract`.  `ask` is the answer of an application that wraps
`can_overwrite` (main.py:149-156) for existing files.  Directories are not modelled:
`os.makedirs` may fail silently, `open` then raises.  The file is opened before the
stored data is read from the SRR. -/
def extractOne (srr : Path) (ask : Path → Bool) (b : Block) (out : Path) (fs : FS) : FS × Res Bool :=
  if (fs out).isNone || ask out then
    let fs1 := fs.set out (some [])
    match fs1 srr with
    | none => (fs1, .error .envError)
    | some data =>
      match srrData data b with
      | .error e => (fs1, .error e)
      | .ok d => (fs1.set out (some d), .ok true)
  else (fs, .ok false)

/-- main.py:165-201 `extract_files`: the loop over the blocks of the SRR.  The result
lists the output path and whether it was written. -/
def extractLoop (srr : Path) (ask : Path → Bool) (a : ExtractArgs) :
    List Block → FS → FS × Res (List (Path × Bool))
  | [], fs => (fs, .ok [])
  | b :: t, fs =>
    if b.btype = 0x6A then
      match b.kind with
      | .stored _ name =>
        match opath name a.extractPaths a.outFolder, osFileNameSrr name with
        | .ok out, .ok osName =>
          if isSelected a name out osName then
            match extractOne srr ask b out fs with
            | (fs, .error e) => (fs, .error e)
            | (fs, .ok r) =>
              match extractLoop srr ask a t fs with
              | (fs, .error e) => (fs, .error e)
              | (fs, .ok rs) => (fs, .ok ((out, r) :: rs))
          else extractLoop srr ask a t fs
        | .error e, _ => (fs, .error e)
        | _, .error e => (fs, .error e)
      | _ => (fs, .error .attrError)
    else extractLoop srr ask a t fs

/-- `extract_files(srr, ...)`. -/
def extractFiles (srr : Path) (ask : Path → Bool) (a : ExtractArgs) (fs : FS) :
    FS × Res (List (Path × Bool)) :=
  match fs srr with
  | none => (fs, .error .envError)
  | some data =>
    match readAll data with
    | .error e => (fs, .error e)
    | .ok blocks => extractLoop srr ask a blocks fs

end Rescene
