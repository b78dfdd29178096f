import Verif.Model.Regex
import Verif.Model.Paths
import Verif.Model.SrsFiles
import Verif.Model.Volumes
/-
Which folders are releases: `get_release_directories` and `is_release` of /repo/bin/pyrescene.py.
-/
namespace Rescene

mutual
/-- What is in a folder: the names of its files, and its folders. -/
inductive Tree where
  | mk (files : List Str) (dirs : Dirs)
/-- Folders with their names. -/
inductive Dirs where
  | nil
  | cons (name : Str) (tree : Tree) (rest : Dirs)
end

def Tree.files : Tree → List Str
  | .mk files _ => files

def Tree.dirs : Tree → Dirs
  | .mk _ dirs => dirs

def Dirs.toList : Dirs → List (Str × Tree)
  | .nil => []
  | .cons n t r => (n, t) :: r.toList

/-- `os.listdir`. -/
def Tree.listdir (t : Tree) : List Str := t.files ++ t.dirs.toList.map (·.1)

/-- A literal character (lower case ASCII letter or not a letter) under `re.IGNORECASE`, with the other
characters that Python takes for the same letter: ſ for s, the Kelvin sign for k, İ and ı for i. -/
def rxSame (x : Nat) (c : Nat) : Bool :=
  rxCi x c || (x == 0x73 && c == 0x17F) || (x == 0x6B && c == 0x212A) || (x == 0x69 && (c == 0x130 || c == 0x131))

/-- `[a-zA-Z0-9]` under `re.IGNORECASE`. -/
def rxAlnum (c : Nat) : Bool :=
  (0x30 ≤ c && c ≤ 0x39) || (0x41 ≤ c && c ≤ 0x5A) || (0x61 ≤ c && c ≤ 0x7A) || c == 0x17F || c == 0x212A || c == 0x130 || c == 0x131

/-- Nothing. -/
def rxEps : Rx := .many fun _ => false

/-- `x?`. -/
def rxOpt (x : Rx) : Rx := .alt x rxEps

/-- A word under `re.IGNORECASE`. -/
def rxWord : Str → Rx
  | [] => rxEps
  | c :: s => .seq (.cls (rxSame c)) (rxWord s)

/-- `[...]+`. -/
def rxSome (p : Nat → Bool) : Rx := .seq (.cls p) (.many p)

/-- utility.py:68 `diskfolder`: `(CD|DISK|DVD|DISC|PART)[\._]?\d\d?([_.-]?[a-zA-Z0-9\._]+)?`. -/
def diskRx (dig : Nat → Bool) : Rx :=
  .seq (.alt (rxWord (str "cd")) (.alt (rxWord (str "disk")) (.alt (rxWord (str "dvd")) (.alt (rxWord (str "disc")) (rxWord (str "part"))))))
    (.seq (rxOpt (.cls fun c => c == 0x2E || c == 0x5F))
      (.seq (.cls dig) (.seq (rxOpt (.cls dig))
        (rxOpt (.seq (rxOpt (.cls fun c => c == 0x5F || c == 0x2E || c == 0x2D))
          (rxSome fun c => rxAlnum c || c == 0x2E || c == 0x5F))))))

/-- utility.py:69 `DISK_FOLDERS`. -/
def diskFolder (dig : Nat → Bool) (s : Str) : Bool := (Rx.seq .bos (.seq (diskRx dig) .eos)).test s

/-- utility.py:70-71: `(Vob)?Samples?|Covers?|Proofs?|Subs?(pack)?|(vob)?subs?`. -/
def partsRx : Rx :=
  .alt (.seq (rxOpt (rxWord (str "vob"))) (.seq (rxWord (str "sample")) (rxOpt (rxWord (str "s")))))
    (.alt (.seq (rxWord (str "cover")) (rxOpt (rxWord (str "s"))))
      (.alt (.seq (rxWord (str "proof")) (rxOpt (rxWord (str "s"))))
        (.alt (.seq (rxWord (str "sub")) (.seq (rxOpt (rxWord (str "s"))) (rxOpt (rxWord (str "pack")))))
          (.seq (rxOpt (rxWord (str "vob"))) (.seq (rxWord (str "sub")) (rxOpt (rxWord (str "s"))))))))

/-- utility.py:70-71 `RELEASE_FOLDERS`. -/
def releaseFolder (dig : Nat → Bool) (s : Str) : Bool := (Rx.seq .bos (.seq (.alt (diskRx dig) partsRx) .eos)).test s

/-- pyrescene.py:1338 `NO_HYPHEN`. -/
def noHyphen (s : Str) : Bool := (Rx.seq .bos (.seq (rxSome fun c => rxAlnum c || c == 0x5F) .eos)).test s

/-- pyrescene.py:1354: `CD(.?|_-_)\d{1-2}.+`, in which `{1-2}` is text. -/
def cdFolder (dig : Nat → Bool) (s : Str) : Bool :=
  (Rx.seq (rxWord (str "cd")) (.seq (.alt (rxOpt (.cls rxDot)) (rxWord (str "_-_"))) (.seq (.cls dig) (.seq (rxWord (str "{1-2}")) (rxSome rxDot))))).test s

/-- pyrescene.py:1313-1314. -/
def notScene : List Str := [str "motechnetfiles.nfo", str "movie.nfo", str "scc.nfo", str "imdb.nfo", str "tvmaze.nfo"]

/-- pyrescene.py:1330-1334: a file that makes the folder a release. -/
def sceneFile (lower : Str → Str) (f : Str) : Bool :=
  (lower (f.drop (f.length - 4)) == str ".nfo" || lower (f.drop (f.length - 4)) == str ".sfv") && !notScene.contains f

/-- pyrescene.py:1360-1361: a folder with an SFV file in it. -/
def hasSfv (lower : Str → Str) (t : Tree) : Bool := t.listdir.any fun f => endsWith (lower f) (str ".sfv")

/-- pyrescene.py:1341-1381, 1384: `release` before the test for packs, and `custom_dirs_old_music`. -/
def looksReleased (dig : Nat → Bool) (lower : Str → Str) (t : Tree) : Bool × List (Str × Tree) :=
  if t.files.any (sceneFile lower) then (true, [])
  else
    let dirs := t.dirs.toList
    let custom := dirs.filter fun d => !diskFolder dig d.1 && (noHyphen d.1 || cdFolder dig d.1)
    let viaDisk := dirs.any fun d => diskFolder dig d.1 && hasSfv lower d.2
    let count := (custom.filter fun d => hasSfv lower d.2).length
    (viaDisk || (decide (dirs.length ≤ 10) && (decide (dirs.length = count) && decide (count ≥ 2))), custom)

/-- pyrescene.py:1440-1444: `name` is the last part of the path. -/
def spaceless (name : Str) : Bool := !name.contains 0x20

/-- pyrescene.py:1392: a single file that is an NFO file. -/
def loneNfo (lower : Str → Str) : List Str → Bool
  | [f] => endsWith (lower f) (str ".nfo")
  | _ => false

mutual
/-- pyrescene.py:1316-1446 `is_release`; `name` is the last part of the path (`basename`, and the `tail` of
line 1440: paths are from `abspath`).  Simplified: folders can be read. -/
def Tree.isRelease (dig : Nat → Bool) (lower : Str → Str) (name : Str) : Tree → Bool
  | .mk files dirs =>
    let first := looksReleased dig lower (.mk files dirs)
    if !(first.1 && !releaseFolder dig name) then false
    else
      let release :=
        if loneNfo lower files then
          let isPack := dirs.arePack dig lower && !dirs.toList.isEmpty
          if isPack && first.2.isEmpty && decide (dirs.toList.length ≤ 10) then
            let count := ((dirs.toList.filter fun d => noHyphen d.1).filter fun d => hasSfv lower d.2).length
            decide (dirs.toList.length = count) && decide (count ≥ 2)
          else !isPack
        else true
      release && spaceless name
/-- pyrescene.py:1395-1403: each folder is a release or empty. -/
def Dirs.arePack (dig : Nat → Bool) (lower : Str → Str) : Dirs → Bool
  | .nil => true
  | .cons n t rest => (t.isRelease dig lower n || t.listdir.isEmpty) && rest.arePack dig lower
end

/-- Python's `a <= b` on strings. -/
def strLe : Str → Str → Bool
  | [], _ => true
  | _ :: _, [] => false
  | a :: s, b :: t => a < b || (a == b && strLe s t)

def insertOn {α : Type} (x : Str × α) : List (Str × α) → List (Str × α)
  | [] => [x]
  | y :: l => if strLe x.1 y.1 then x :: y :: l else y :: insertOn x l

/-- pyrescene.py:1290 `dirnames.sort()`. -/
def sortOn {α : Type} : List (Str × α) → List (Str × α)
  | [] => []
  | x :: l => insertOn x (sortOn l)

mutual
/-- `os.walk(path)` with the folders in alphabetical order. -/
def Tree.walk (path : Str) : Tree → List (Str × Tree)
  | .mk files dirs => (path, .mk files dirs) :: (sortOn (dirs.walks path)).flatMap (·.2)
def Dirs.walks (path : Str) : Dirs → List (Str × List (Str × Tree))
  | .nil => []
  | .cons n t rest => (n, t.walk (posixJoin2 path n)) :: rest.walks path
end

/-- `x in y` for strings. -/
def isIn (x : Str) : Str → Bool
  | [] => x.isEmpty
  | c :: s => x.isPrefixOf (c :: s) || isIn x s

/-- `p.rfind("/") + 1`. -/
def rslash (p : Str) : Nat := p.length - (basename p).length

/-- pyrescene.py:1295-1302: is the folder left out because of the last release? -/
def leftOut (last path : Str) : Bool := isIn last path && (!last.isEmpty && rslash path != rslash last)

/-- pyrescene.py:1287-1311: the loop over the folders, with `last_release`. -/
def releaseLoop (rel : Str → Tree → Bool) : Str → List (Str × Tree) → List Str
  | _, [] => []
  | last, (p, t) :: rest =>
    if leftOut last p then releaseLoop rel last rest
    else if rel (basename p) t then p :: releaseLoop rel p rest
    else releaseLoop rel last rest

/-- pyrescene.py:1265-1311 `get_release_directories` on an absolute path.  Simplified: no waiting for a
drive. -/
def releaseDirs (dig : Nat → Bool) (lower : Str → Str) (path : Str) (t : Tree) : List Str :=
  releaseLoop (fun n t => t.isRelease dig lower n) [] (t.walk path)

end Rescene
