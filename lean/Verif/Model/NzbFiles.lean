import Verif.Model.Volumes
import Verif.Model.Release
/-
The files of an NZB: their names (/repo/usenet/nzb_utils.py) and what is done with them for an SRR
(/repo/usenet/srr_usenet.py `create_srr`).
-/
namespace Rescene

/-- `s.strip('"')`. -/
def stripQuotes (s : Str) : Str := ((s.dropWhile (· == 0x22)).reverse.dropWhile (· == 0x22)).reverse

/-- nzb_utils.py:77-79: between the first and the last quote.  Simplified: no line ends in the subject (XML turns
them into spaces). -/
def parseQuoted (s : Str) : Option Str :=
  match s.dropWhile (· != 0x22) with
  | [] => none
  | _ :: r => match r.reverse.dropWhile (· != 0x22) with
    | [] => none
    | _ :: m => some (stripQuotes m.reverse)

/-- nzb_utils.py:83 `[\d/\(\)]`. -/
def counterChar (dig : Nat → Bool) (c : Nat) : Bool := dig c || c == 0x2F || c == 0x28 || c == 0x29

/-- nzb_utils.py:83 `(?P<filename>.*) [\d/\(\)]+`: as long as possible. -/
def nameBefore (dig : Nat → Bool) (r : Str) : Option Str :=
  (List.range (r.length + 1)).reverse.findSome? fun k => match r.drop k with
    | 0x20 :: c :: _ => if counterChar dig c then some (r.take k) else none
    | _ => none

/-- nzb_utils.py:83 `(\]-| )` at the start, and the rest. -/
def nameFrom (dig : Nat → Bool) (s : Str) : Option Str :=
  match s with
  | 0x5D :: 0x2D :: r => nameBefore dig r
  | 0x20 :: r => nameBefore dig r
  | _ => none

/-- nzb_utils.py:83-85: `.*` in front takes as much as possible. -/
def parsePlain (dig : Nat → Bool) (s : Str) : Option Str := (List.range (s.length + 1)).reverse.findSome? fun n => nameFrom dig (s.drop n)

/-- nzb_utils.py:73-87 `parse_name`. -/
def parseName (dig : Nat → Bool) (s : Str) : Str :=
  match parseQuoted s with
  | some n => n
  | none => match parsePlain dig s with
    | some n => n
    | none => s

/-- A file of an NZB: its name, its parts with their sizes, the size that the server says, and how many entries and comments
it has when it is read as an SFV file (`none`: it cannot be read).  Simplified: two files have no articles in
common. -/
structure NzbFile where
  name : Str
  parts : List (Nat × Nat)
  size : Nat
  sfv : Option (Nat × Nat)
deriving DecidableEq

/-- srr_usenet.py:1131 `sum(segments[s].bytes ...)`. -/
def NzbFile.bytes (f : NzbFile) : Nat := (f.parts.map (·.2)).sum

/-- srr_usenet.py:1127-1140: the version of the file with the largest size is kept. -/
def addNzbFile (d : List (Str × NzbFile)) (f : NzbFile) : List (Str × NzbFile) :=
  if d.any fun e => e.1 == f.name then d.map fun e => if e.1 == f.name ∧ f.bytes > e.2.bytes then (e.1, f) else e
  else d ++ [(f.name, f)]

/-- srr_usenet.py:1121-1140 `nntp_files`. -/
def nzbFiles (l : List NzbFile) : List (Str × NzbFile) := l.foldl addNzbFile []

/-- srr_usenet.py:1141 `nfile.name[-4:].lower()`; other letters than ASCII make no difference for what it is compared with. -/
def nzbExt (f : NzbFile) : Str := lowerStr (f.name.drop (f.name.length - 4))

/-- srr_usenet.py:1143-1151: the files to store, before some are left out. -/
def toStoreFirst (l : List NzbFile) : List NzbFile :=
  l.filter fun f => [str ".nfo", str ".jpg", str ".png", str ".bmp", str ".srs"].contains (nzbExt f) || (nzbExt f == str ".sfv" && isIn (str "subs") f.name)

/-- srr_usenet.py:1145-1151: the SFV files. -/
def sfvsFirst (l : List NzbFile) : List NzbFile := l.filter fun f => nzbExt f == str ".sfv" && !isIn (str "subs") f.name

/-- `ich\d+.part\d+.rar` and the like, under `re.I`.  Simplified: the letters are ASCII. -/
def repackRx (dig : Nat → Bool) (who : Str) : Rx :=
  rxLit who (.seq (.cls dig) (.seq (.many dig) (.seq (.cls rxDot) (rxLit (str "part") (.seq (.cls dig) (.seq (.many dig) (.seq (.cls rxDot)
    (rxLit (str "ra") (.cls (rxCi 0x72))))))))))

/-- `[a-zA-Z0-9]`. -/
def plainChar (c : Nat) : Bool := (0x30 ≤ c && c ≤ 0x39) || (0x41 ≤ c && c ≤ 0x5A) || (0x61 ≤ c && c ≤ 0x7A)

/-- srr_usenet.py:1159-1169: known repacks.  `$` in front of a line end cannot occur: the length is tested. -/
def isRepack (dig : Nat → Bool) (name : Str) : Bool :=
  (repackRx dig (str "ich")).test name || (repackRx dig (str "zed")).test name || isIn (str "kere.ws") name ||
  (lowerStr (name.drop (name.length - 4)) == str ".rar" && name.length == 24 && (name.take 20).all plainChar)

/-- How the choice of the files ends early. -/
inductive NzbStop where
  | incomplete (name : Str)
  | repack (name : Str)
deriving DecidableEq

/-- srr_usenet.py:1153-1169. -/
def nzbCheck (dig : Nat → Bool) : List (Str × NzbFile) → Except NzbStop Unit
  | [] => .ok ()
  | (_, f) :: t =>
    if isRar dig f.name && !(f.parts.any fun p => p.1 == 1) then .error (.incomplete f.name)
    else if isRepack dig f.name then .error (.repack f.name)
    else nzbCheck dig t

/-- srr_usenet.py:1181-1186: more entries, or more comments. -/
def sfvBetter (new old : NzbFile) : Bool :=
  match new.sfv, old.sfv with
  | some (ne, nc), some (oe, oc) => ne > oe || (ne == oe && nc > oc)
  | _, _ => false

/-- srr_usenet.py:1174-1190: one SFV file of each name. -/
def addSfv (l : List NzbFile) (f : NzbFile) : List NzbFile :=
  if l.any fun g => g.name == f.name then l.map fun g => if g.name == f.name ∧ sfvBetter f g = true then f else g
  else l ++ [f]

/-- srr_usenet.py:1171-1191. -/
def uniqueSfvs (l : List NzbFile) : List NzbFile := l.foldl addSfv []

/-- srr_usenet.py:1199 `.*(extras|proof|sample|subpack).*`.  Simplified: the letters are ASCII. -/
def lastSfv (f : NzbFile) : Bool := [str "extras", str "proof", str "sample", str "subpack"].any fun w => isIn w (lowerStr f.name)

/-- srr_usenet.py:1197-1201: the loop goes on with the next position of the list, also after it took an element out. -/
def moveLast {α : Type} (p : α → Bool) : Nat → Nat → List α → List α
  | 0, _, l => l
  | k + 1, i, l => match l[i]? with
    | none => l
    | some x => if p x then moveLast p k (i + 1) (l.eraseIdx i ++ [x]) else moveLast p k (i + 1) l

/-- srr_usenet.py:1171-1201: the SFV files in the order they are used in. -/
def nzbSfvs (l : List NzbFile) : List NzbFile :=
  let s := (sortOn ((uniqueSfvs (sfvsFirst l)).map fun f => (f.name, f))).map (·.2)
  moveLast lastSfv s.length 0 s

/-- srr_usenet.py:1208-1243: what is left out. -/
def leftOutNzb (f : NzbFile) : Bool :=
  endsWith f.name (str "_s.jpg") || f.name == str "UsenetSpaceCowboys.nfo" || f.name == str "_newzNZB.nfo" ||
  (endsWith f.name (str ".jpg") && !isIn (str "proof") (lowerStr f.name) &&
    (f.bytes < 9000 || isIn (str "-thumb.jpg") f.name || isIn (str "_poster.jpg") f.name || isIn (str "_s.jpg") f.name)) ||
  (endsWith f.name (str ".png") && f.size == 592451)

/-- srr_usenet.py:1203-1250: the files to store. -/
def nzbStored (l : List NzbFile) : List NzbFile :=
  let kept := (toStoreFirst l).filter fun f => !leftOutNzb f
  (kept.filter fun f => endsWith f.name (str ".nfo")) ++ kept.filter fun f => !endsWith f.name (str ".nfo")

/-- srr_usenet.py:1120-1250: the files to read from, the SFV files and the files to store. -/
def nzbPlan (dig : Nat → Bool) (l : List NzbFile) : Except NzbStop (List (Str × NzbFile) × List NzbFile × List NzbFile) := do
  nzbCheck dig (nzbFiles l)
  return (nzbFiles l, nzbSfvs l, nzbStored l)

end Rescene
