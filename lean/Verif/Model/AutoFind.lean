import Verif.Model.AutoSfvs
import Verif.Model.Create
import Verif.Model.ImageSize
/-
Which files of a release pyrescene takes as samples and proofs: `get_files`, `get_files_list`,
`get_sample_files`, `get_proof_files` and what they use, of /repo/bin/pyrescene.py.
-/
namespace Rescene

mutual
/-- The files that `os.walk` gives, with their names: the files of a folder and then those of its folders. -/
def Tree.found (path : Str) : Tree → List (Str × Str)
  | .mk files dirs => files.map (fun f => (posixJoin2 path f, f)) ++ dirs.found path
def Dirs.found (path : Str) : Dirs → List (Str × Str)
  | .nil => []
  | .cons n t rest => t.found (posixJoin2 path n) ++ rest.found path
end

/-- pyrescene.py:149-161 `get_files`, for the pattern `"*" + ext`.  Simplified: no `TypeError` for paths that
are too long. -/
def getFiles (lower : Str → Str) (root : Str) (t : Tree) (ext : Str) : List Str :=
  ((t.found root).filter fun f => endsWith (lower f.2) (lower ext)).map (·.1)

/-- pyrescene.py:163-177 `get_files_list`: once for each extension of the list that fits. -/
def getFilesList (lower : Str → Str) (root : Str) (t : Tree) (exts : List Str) : List Str :=
  (t.found root).flatMap fun f => (exts.filter fun e => endsWith (lower f.2) e).map fun _ => f.1

/-- What is looked up: is there something at a path, the names that an SFV file lists, the size and the bytes of
a file, the names of the files in a RAR archive up to an error, and the tests of the image library. -/
structure FindWorld where
  root : Str
  tree : Tree
  lower : Str → Str
  isThere : Str → Bool
  listed : Str → List Str
  size : Str → Nat
  data : Str → Bytes
  archive : Str → List Str × Option Err
  std : Bytes → Option ImageKind

/-- `w` and the other parts are the same: the files with an extension. -/
def FindWorld.files (w : FindWorld) (ext : String) : List Str := getFiles w.lower w.root w.tree (str ext)

/-- pyrescene.py:187-188: `sample` somewhere in the path, or an SFV file with the same name. -/
def clearSample (w : FindWorld) (f : Str) : Bool :=
  isIn (str "sample") (w.lower f) || w.isThere (f.take (f.length - 4) ++ str ".sfv")

/-- pyrescene.py:179-205 `get_sample_files`. -/
def sampleFiles (w : FindWorld) : List Str :=
  let all := getFilesList w.lower w.root w.tree videoExtensions
  let others := all.filter fun f => !clearSample w f
  let listed := (w.files ".sfv").flatMap w.listed
  all.filter (clearSample w) ++ others.filter fun f => listed.contains (basename f)

/-- pyrescene.py:207-210 `get_music_files`. -/
def musicFiles (w : FindWorld) : List Str := w.files ".mp3" ++ w.files ".mp2" ++ w.files ".flac"

/-- pyrescene.py:212 `PROOF_IMAGE_EXTS`. -/
def proofExts : List String := [".jpg", "jpeg", ".png", ".bmp", ".gif"]

/-- pyrescene.py:238-241: a word of proofs in the path in lower case. -/
def proofWord (l : Str) : Bool :=
  isIn (str "proof") l || isIn (str "sample") l || isIn (str "/cover") l || isIn (str "/screenshots") l || isIn (str "/compare") l

/-- `os.path.splitext(p)[0]`. -/
def rootOf (p : Str) : Str := p.take (p.length - (extOf p).length)

/-- pyrescene.py:251-263 `always_skip`. -/
def alwaysSkip (lower : Str → Str) (f : Str) : Bool :=
  (basename f).contains 0x20 || endsWith (rootOf (lower f)) (str "folder") ||
  isIn (str "albumartsmall") (basename (lower f)) || (str "albumart_{").isPrefixOf (basename (lower f))

/-- pyrescene.py:362-373 `strip_zeros`. -/
def stripZeros (s : Str) : Str :=
  if ["00-", "00_", "01-", "01_"].any fun p => (str p).isPrefixOf s then s.drop 3
  else if ["000-", "000_", "001-", "001_"].any fun p => (str p).isPrefixOf s then s.drop 4
  else if ["0000-", "0000_", "0001-", "0001_"].any fun p => (str p).isPrefixOf s then s.drop 5
  else s

/-- `s.split("-")[-1]`. -/
def afterHyphen (s : Str) : Str := (splitOn 0x2D s).getLast?.getD []

/-- pyrescene.py:318-332: is this name of the release like that of the image? -/
def likeName (lower : Str → Str) (img bn : Str) : Bool :=
  lower (bn.take 10) == (basename img).take 10 ||
  lower ((stripZeros bn).take 10) == (stripZeros (basename img)).take 10 ||
  afterHyphen (lower bn) == afterHyphen (rootOf img)

/-- pyrescene.py:335-339 `collect_known_good_filenames`. -/
def goodNames (w : FindWorld) : List Str :=
  (w.files ".sfv" ++ w.files ".nfo" ++ w.files ".m3u" ++ w.files ".rar").map fun f => (basename f).take ((basename f).length - 4)

/-- pyrescene.py:309-333 `similar_to_good_name`. -/
def similarName (w : FindWorld) (img : Str) : Bool := (goodNames w).any (likeName w.lower img)

/-- pyrescene.py:265-307 `store_rls_root`. -/
def storeRoot (w : FindWorld) (img : Str) : Res Bool :=
  if ["00", "01", "001"].any fun p => (str p).isPrefixOf (basename img) then .ok true
  else if w.size img > 100000 then
    if similarName w img then do
      let c ← siteCover w.std (w.data img)
      .ok (!c)
    else .ok false
  else .ok false

/-- pyrescene.py:232-249 `filter_proof_image_files`, for one image. -/
def imageWanted (w : FindWorld) (more : Bool) (img : Str) : Res Bool :=
  if proofWord (w.lower img) then .ok true
  else if alwaysSkip w.lower img then .ok false
  else if more then .ok true
  else storeRoot w img

/-- pyrescene.py:350-360 `has_stored_proof_ext`: the first image ends the search; `ValueError` is caught. -/
def imageStored (w : FindWorld) (rar : Str) : Res Bool :=
  if (w.archive rar).1.any (imageName w.lower) then .ok true
  else
    match (w.archive rar).2 with
    | none => .ok false
    | some .valueError => .ok false
    | some e => .error e

/-- pyrescene.py:341-348 `filter_proof_rar_files`, for one archive. -/
def rarWanted (w : FindWorld) (rar : Str) : Res Bool := if isIn (str "proof") (w.lower rar) then imageStored w rar else .ok false

/-- pyrescene.py:214-230 `get_proof_files`. -/
def proofFiles (w : FindWorld) (more : Bool) : Res (List Str) := do
  let imgs ← filterRes (imageWanted w more) (proofExts.flatMap w.files)
  let rars ← filterRes (rarWanted w) (w.files ".rar")
  .ok (imgs ++ rars)

end Rescene
