import Verif.Model.AutoSfvs
import Verif.Model.Paths
/-
SRR files for vobsubs: `create_srr_for_subs` of /repo/bin/pyrescene.py.
-/
namespace Rescene

/-- What `unrar` makes of an archive: it fails, or it gives files (in the order of `os.listdir`), some of which are
the first volumes of archives again. -/
inductive Box where
  | broken
  | full (files : List (Str × Bytes)) (inner : Str → Box)

/-- What is looked up or done outside: can a folder be made (862-874), the short name from the hash of a path (721, 802), a name in
UTF-8 (752), and making an SRR file of a first volume with files to store (780-782), which can fail. -/
structure SubWorld where
  dig : Nat → Bool
  lower : Str → Str
  canMake : Str → Bool
  short : Str → Str
  utf8 : Str → Bytes
  create : Str → Str → List Str → Res Unit
  box : Str → Box
  isFile : Str → Bool

/-- What there is in the working folder: paths, `languages.diz`, and the SRR files that were made: the path, the first volume and
the files stored in it. -/
structure SubState where
  there : List Str
  langs : Option Bytes
  made : List (Str × Str × List Str)

/-- `str(n)`. -/
def natStr (n : Nat) : Str := str (toString n)

/-- pyrescene.py:724-727 and 803-807: the loop over counters, with a step budget. -/
def freeLoop (there : List Str) (folder : Str) : Nat → Nat → Str
  | 0, k => posixJoin2 folder (natStr k)
  | fuel + 1, k => if there.contains (posixJoin2 folder (natStr k)) then freeLoop there folder fuel (k + 1) else posixJoin2 folder (natStr k)

/-- pyrescene.py:720-727 and 801-807: a new folder in this folder. -/
def freeDir (there : List Str) (folder short : Str) : Str :=
  if there.contains (posixJoin2 folder short) then freeLoop there folder there.length 1 else posixJoin2 folder short

/-- The lines of a file opened as bytes. -/
def keepLines : Bytes → List Bytes
  | [] => []
  | c :: s =>
    if c = 0x0A then [c] :: keepLines s
    else
      match keepLines s with
      | [] => [[c]]
      | h :: t => (c :: h) :: t

/-- pyrescene.py:745-755: what one IDX file adds to `languages.diz`. -/
def idxText (utf8 : Str → Bytes) (f : Str × Bytes) : Bytes :=
  [0x23, 0x20] ++ utf8 f.1 ++ [0x0A] ++ ((keepLines f.2).filter fun l => [0x69, 0x64, 0x3A, 0x20].isPrefixOf l).flatten

/-- pyrescene.py:744: the IDX files, sorted by name. -/
def idxFiles (lower : Str → Str) (files : List (Str × Bytes)) : List (Str × Bytes) :=
  (sortOn files).filter fun f => lower (f.1.drop (f.1.length - 4)) == str ".idx"

/-- pyrescene.py:743-755: `languages.diz` after the files of a folder. -/
def addLangs (w : SubWorld) (langs : Option Bytes) (files : List (Str × Bytes)) : Option Bytes :=
  (idxFiles w.lower files).foldl (fun l f => some (l.getD [] ++ idxText w.utf8 f)) langs

/-- pyrescene.py:717: `os.path.join(folder, os.path.basename(fr)[:-4]) + ".srr"`. -/
def newSrr (folder fr : Str) : Str := posixJoin2 folder ((basename fr).take ((basename fr).length - 4)) ++ str ".srr"

/-- pyrescene.py:713-785: one turn of the loop, for the first volume `fr`; `srr` is the name of the SRR file (764-778).  Simplified:
temporary names (779, 784). -/
def Box.work (w : SubWorld) : Box → Str → Str → Str → SubState → Res (Option Str × SubState)
  | .broken, folder, fr, _, s =>
    let dest := freeDir s.there folder (w.short fr)
    .ok (none, if w.canMake dest then { s with there := dest :: s.there } else s)
  | .full files inner, folder, fr, srr, s =>
    let dest := freeDir s.there folder (w.short fr)
    if w.canMake dest then do
      let s := { s with there := files.map (fun f => posixJoin2 dest f.1) ++ dest :: s.there, langs := addLangs w s.langs files }
      let r ← (firstRars w.dig w.lower (files.map (·.1))).foldlM (fun (a : List Str × SubState) n => do
        let b ← (inner n).work w dest (posixJoin2 dest n) (newSrr dest (posixJoin2 dest n)) a.2
        .ok (a.1 ++ b.1.toList, b.2)) ([], s)
      w.create srr fr r.1
      .ok (some srr, { r.2 with made := r.2.made ++ [(srr, fr, r.1)], there := srr :: r.2.there })
    else .ok (none, s)

/-- pyrescene.py:764-776: the name of the SRR file of a first volume of the SFV file. -/
def topSrr (srrOut : Str) (rars : List Str) (folder fr : Str) : Str :=
  if rars.length > 1 then posixJoin2 (dirname srrOut) (basename (newSrr folder fr)) else srrOut

/-- pyrescene.py:791-800: the first volumes: those of the SFV file, or a file with a similar name. -/
def subRars (w : SubWorld) (listed : List Str) (sfv : Str) : List Str :=
  match listed with
  | [] =>
    let base := sfv.take (sfv.length - 4)
    match [".rar", ".part1.rar", ".part01.rar", ".001"].find? fun e => w.isFile (base ++ str e) with
    | some e => [base ++ str e]
    | none => []
  | l => l

/-- pyrescene.py:685-814: the SRR files for the first volumes; `dest` is the path of the SFV file in the working folder. -/
def subsMade (w : SubWorld) (dest : Str) (rars : List Str) (s : SubState) : Res (List Str × SubState) :=
  match rars with
  | [] => .ok ([], s)
  | fr :: _ =>
    let folder := freeDir s.there (dirname dest) (w.short fr)
    let s := { s with there := folder :: s.there }
    let srrOut := dest.take (dest.length - 4) ++ str ".srr"
    rars.foldlM (fun (a : List Str × SubState) fr => do
      let b ← (w.box fr).work w folder fr (topSrr srrOut rars folder fr) a.2
      .ok (a.1 ++ b.1.toList, b.2)) ([], s)

/-- pyrescene.py:665-824 `create_srr_for_subs`: the SRR files, and what is stored as `languages.diz` in the first one. -/
def subsSrrs (w : SubWorld) (sfv dest : Str) (listed : List Str) (s : SubState) : Res (List Str × Option (Str × Bytes) × SubState) := do
  let r ← subsMade w dest (subRars w listed sfv) s
  match r.1.head?, r.2.langs with
  | some srr, some d => .ok (r.1, some (srr, d), r.2)
  | _, _ => .ok (r.1, none, r.2)

/-- pyrescene.py:1125-1136: no SRR files for this SFV file: a RAR file of that name is already stored, or it is in a folder of a dirfix. -/
def subSkipped (lower : Str → Str) (copied : List Str) (esfv : Str) : Bool :=
  (copied.any fun c => (((basename esfv).take ((basename esfv).length - 3)) ++ str "rar").isSuffixOf c) ||
  isIn (str "dirfix") (lower (basename (normpath (dirname esfv))))

/-- pyrescene.py:1123-1147: the files to store after the extra SFV files; `one` gives the SRR files of an SFV file, or a `ValueError`,
which is only logged. -/
def subsLoop (lower : Str → Str) (one : Str → Option (List Str)) (copied : List Str) (extra : List Str) : List Str :=
  extra.foldl (fun copied esfv => if subSkipped lower copied esfv then copied else copied ++ (one esfv).getD []) copied

/-- pyrescene.py:1149-1159: the main SFV files, for releases of only subtitles. -/
def subsAll (lower : Str → Str) (one : Str → Option (List Str)) (copied : List Str) (extra main : List Str) (rls : Str) : List Str :=
  let copied := subsLoop lower one copied extra
  if isIn (str "subpack") (lower rls) || isIn (str "subfix") (lower rls) then main.foldl (fun c m => c ++ (one m).getD []) copied else copied

end Rescene
