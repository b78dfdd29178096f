import Verif.Model.Info
import Verif.Model.Release
/-
Listing and moving SRR files: /repo/bin/srr_sort.py.
-/
namespace Rescene

/-- rar.py:1654-1670: iterating over a `RarReader`: the blocks until the end or an exception. -/
def scanLoop (mode : Mode) (data : Bytes) : Nat → RState → List Block × Option Err
  | 0, _ => ([], some .fuel)
  | fuel + 1, st =>
    match readBlock mode data st with
    | .error e => ([], some e)
    | .ok none => ([], none)
    | .ok (some (b, st')) => (b :: (scanLoop mode data fuel st').1, (scanLoop mode data fuel st').2)

/-- `for block in RarReader(srr_file)`: also an exception of the constructor. -/
def scanFile (data : Bytes) : List Block × Option Err :=
  match openReader data with
  | .error e => ([], some e)
  | .ok mode => scanLoop mode data (data.length + 1) RState.init

/-- A loop over the blocks that returns when `f` gives an answer, and otherwise gives `last`. -/
def seekBlock (f : Block → Res (Option Bool)) (last : Bool) : List Block × Option Err → Res Bool
  | ([], none) => .ok last
  | ([], some e) => .error e
  | (b :: t, e) =>
    match f b with
    | .error x => .error x
    | .ok (some r) => .ok r
    | .ok none => seekBlock f last (t, e)

/-- The name of a block of this type; a block without a name has no such attribute. -/
def nameOf (b : Block) : Res Str :=
  match b.kind with
  | .stored _ n => .ok n
  | .rarFile n => .ok n
  | .packed f => .ok f.name
  | .newSub f _ => .ok f.name
  | .oso _ _ n => .ok n
  | _ => .error .attrError

/-- srr_sort.py:43-48 `check_compression`. -/
def checkCompression (data : Bytes) : Res Bool :=
  seekBlock (fun b => if b.btype = 0x74 then
      match b.kind with
      | .packed f => .ok (if f.method ≠ 0x30 then some true else none)
      | _ => .error .attrError
    else .ok none) false (scanFile data)

/-- srr_sort.py:50-54 `check_empty`. -/
def checkEmpty (data : Bytes) : Res Bool :=
  seekBlock (fun b => if b.btype = 0x74 then .ok (some false) else .ok none) true (scanFile data)

/-- srr_sort.py:57. -/
def sortImages : List Str := [".jpg", ".png", ".bmp", ".gif", "jpeg"].map str

/-- srr_sort.py:56-64 `check_image`. -/
def checkImage (lower : Str → Str) (noproof : Bool) (data : Bytes) : Res Bool :=
  seekBlock (fun b => if b.btype = 0x6A then do
      let n ← nameOf b
      return if sortImages.contains (extOf n) then some (!(noproof && isIn (str "proof") (lower n))) else none
    else .ok none) false (scanFile data)

/-- srr_sort.py:66-73 `check_repack`. -/
def checkRepack (data : Bytes) : Res Bool :=
  seekBlock (fun b => if b.btype = 0x71 then do
      let n ← nameOf b
      return if ([str "rpk", str "repack", str "-r.part01.rar", str "-r.rar"].any fun k => isIn k n) then some true else none
    else .ok none) false (scanFile data)

/-- srr_sort.py:75-81 `check_nfos`: the number is set to zero for each block.  `count` is `none` before the first block. -/
def nfoLoop (lower : Str → Str) : Option Nat → List Block × Option Err → Res Bool
  | none, ([], none) => .error .other
  | some n, ([], none) => .ok (!decide (n ≤ 1))
  | _, ([], some e) => .error e
  | _, (b :: t, e) =>
    if b.btype = 0x6A then
      match nameOf b with
      | .error x => .error x
      | .ok n => nfoLoop lower (some (if lower (n.drop (n.length - 4)) = str ".nfo" then 1 else 0)) (t, e)
    else nfoLoop lower (some 0) (t, e)

def checkNfos (lower : Str → Str) (data : Bytes) : Res Bool := nfoLoop lower none (scanFile data)

/-- srr_sort.py:83-90 `check_duplicates`. -/
def dupLoop : List Str → List Block × Option Err → Res Bool
  | _, ([], none) => .ok false
  | _, ([], some e) => .error e
  | found, (b :: t, e) =>
    if b.btype = 0x6A then
      match nameOf b with
      | .error x => .error x
      | .ok n => if found.contains n then .ok true else dupLoop (found ++ [n]) (t, e)
    else dupLoop found (t, e)

def checkDuplicates (data : Bytes) : Res Bool := dupLoop [] (scanFile data)

/-- srr_sort.py:92-97 `check_for_possible_nonscene`. -/
def checkNonscene (lower : Str → Str) (data : Bytes) : Res Bool :=
  seekBlock (fun b => if b.btype = 0x71 then do
      let n ← nameOf b
      return if n ≠ lower n then some true else none
    else .ok none) false (scanFile data)

/-- srr_sort.py:99-103 `check_availability_stored_files`. -/
def checkNoStored (data : Bytes) : Res Bool :=
  seekBlock (fun b => if b.btype = 0x6A then .ok (some false) else .ok none) true (scanFile data)

/-- srr_sort.py:105-117 `check_for_no_ext` (`found` is false) and `check_for_ext`. -/
def checkExt (lower : Str → Str) (ext : Str) (found : Bool) (data : Bytes) : Res Bool :=
  seekBlock (fun b => if b.btype = 0x6A then do
      let n ← nameOf b
      return if endsWith (lower n) ext then some found else none
    else .ok none) (!found) (scanFile data)

/-- srr_sort.py:212-257: the options; `-m` is in SortSets. -/
structure SortOpts where
  verify : Bool := false
  dirfix : Bool := false
  lowercase : Bool := false
  compressed : Bool := false
  empty : Bool := false
  image : Bool := false
  noproof : Bool := false
  repack : Bool := false
  nfos : Bool := false
  duplicates : Bool := false
  peer2peer : Bool := false
  nofiles : Bool := false
  nosfv : Bool := false
  nonfo : Bool := false
  txt : Bool := false

/-- srr_sort.py:142-151: the tests of the name of the SRR file; `rsplit("-")[-1]` is what follows the last dash. -/
def lowerName (lower : Str → Str) (p : Path) : Bool :=
  let group := (splitOn 0x2D (p.take (p.length - 4))).getLast?.getD []
  group == lower group || group.contains 0x2E || basename p == lower (basename p)

/-- An option that is set. -/
def ifSet (o : Bool) (c : Res Bool) : Res Bool := if o then c else .ok false

/-- srr_sort.py:121-179: does the SRR match?  All the tests are made, in this order. -/
def sortMatch (lower upper : Str → Str) (o : SortOpts) (p : Path) (data : Bytes) : Res Bool := do
  let _ ← (if o.verify then (do let _ ← info lower upper data; return ()) else .ok () : Res Unit)
  let a0 := o.lowercase && lowerName lower p
  let a1 ← ifSet o.compressed (checkCompression data)
  let a2 ← ifSet o.empty (checkEmpty data)
  let a3 ← ifSet (o.image || o.noproof) (checkImage lower o.noproof data)
  let a4 ← ifSet o.repack (checkRepack data)
  let a5 ← ifSet o.nfos (checkNfos lower data)
  let a6 ← ifSet o.duplicates (checkDuplicates data)
  let a7 ← ifSet o.peer2peer (checkNonscene lower data)
  let a8 ← ifSet o.nofiles (checkNoStored data)
  let a9 ← ifSet o.nosfv (checkExt lower (str ".sfv") false data)
  let a10 ← ifSet o.nonfo (checkExt lower (str ".nfo") false data)
  let a11 ← ifSet o.txt (checkExt lower (str ".txt") true data)
  return a0 || a1 || a2 || a3 || a4 || a5 || a6 || a7 || a8 || a9 || a10 || a11

/-- `os.renames` of a file: a file at the new path is replaced.  Folders are not modelled. -/
def renames (fs : FS) (old new : Path) : FS :=
  if old = new then fs else (fs.set new (fs old)).set old none

/-- srr_sort.py:121-190 `check`: the files after it, and what is printed as a match.  After an exception nothing is moved. -/
def sortCheck (lower upper : Str → Str) (o : SortOpts) (out : Option Str) (fs : FS) (p : Path) : FS × Option Path :=
  match fs p with
  | none => (fs, none)
  | some data =>
    match sortMatch lower upper o p data with
    | .ok true =>
      (match out with
        | some d => if d = [] then fs else renames fs p (posixJoin2 d (basename p))
        | none => fs, some p)
    | _ => (fs, none)

/-- srr_sort.py:192-200: the SRR files one after the other; `l` are those that are given or found in a folder that is given. -/
def sortAll (lower upper : Str → Str) (o : SortOpts) (out : Option Str) : FS → List Path → FS × List Path
  | fs, [] => (fs, [])
  | fs, p :: l =>
    let (fs1, m) := sortCheck lower upper o out fs p
    let (fs2, ms) := sortAll lower upper o out fs1 l
    (fs2, m.toList ++ ms)

end Rescene
