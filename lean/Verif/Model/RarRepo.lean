import Verif.Model.Compression
import Verif.Model.Extract
import Verif.Model.Release
/-
The folder of RAR executables: how /repo/bin/preprardir.py fills it and how
/repo/rescene/main.py:1734-1800 reads it.

`dv` is the value of a character that `\d` matches (`int` takes the same characters).  RAR and tar archives are outside of this model: what is in them is an
argument.  The license file (preprardir.py:73-110) and the messages are left out.
-/
namespace Rescene

/-- `\d{n}`: the digits and what follows. -/
def takeDigits (dv : Nat → Option Nat) : Nat → Str → Option (Str × Str)
  | 0, s => some ([], s)
  | _ + 1, [] => none
  | n + 1, c :: s =>
    if (dv c).isSome then
      match takeDigits dv n s with
      | some (d, r) => some (c :: d, r)
      | none => none
    else none

/-- Literal characters: what follows them. -/
def skipLit : Str → Str → Option Str
  | [], s => some s
  | _ :: _, [] => none
  | a :: l, c :: s => if a = c then skipLit l s else none

/-- `int` of digits. -/
def digitsValue (dv : Nat → Option Nat) (s : Str) : Nat := s.foldl (fun n c => 10 * n + (dv c).getD 0) 0

/-- `b\d`: the match and what follows. -/
def takeBeta (dv : Nat → Option Nat) : Str → Option (Str × Str)
  | 0x62 :: c :: s => if (dv c).isSome then some ([0x62, c], s) else none
  | _ => none

/-- main.py:1782-1800 `RarExecutable`, as `__init__` fills it.  The numbers are those of `int(self.major)` and `int(self.minor)`. -/
structure RarExe where
  name : Str
  date : Str
  major : Nat
  minor : Nat
  beta : Option Str
  deriving DecidableEq, Repr

/-- main.py:1789-1798: the regular expression; `none` for the `ValueError`. -/
def rarExe (dv : Nat → Option Nat) (name : Str) : Option RarExe :=
  match takeDigits dv 4 name with
  | none => none
  | some (y, s1) =>
  match skipLit (str "-") s1 with
  | none => none
  | some s2 =>
  match takeDigits dv 2 s2 with
  | none => none
  | some (m, s3) =>
  match skipLit (str "-") s3 with
  | none => none
  | some s4 =>
  match takeDigits dv 2 s4 with
  | none => none
  | some (d, s5) =>
  match skipLit (str "_rar") s5 with
  | none => none
  | some s6 =>
  match takeDigits dv 1 s6 with
  | none => none
  | some (j, s7) =>
  match takeDigits dv 2 s7 with
  | none => none
  | some (n, s8) =>
    some { name := name, date := y ++ str "-" ++ m ++ str "-" ++ d, major := digitsValue dv j, minor := digitsValue dv n,
           beta := (takeBeta dv s8).map (·.1) }

/-- main.py:1744-1751 `load_rar_executables`: `names` is what `os.listdir` gives.  The sort is by date and stable (1839-1844). -/
def loadRepo (dv : Nat → Option Nat) (names : List Str) : List RarExe :=
  (sortOn ((names.filterMap (rarExe dv)).map fun e => (e.date, e))).map (·.2)

/-- main.py:1753-1757 `get_most_recent_version`. -/
def mostRecent (repo : List RarExe) : Res RarExe :=
  match repo.getLast? with
  | some e => .ok e
  | none => .error .emptyRepo

/-- main.py:1767: `rarexec.date < date`. -/
def RarExe.olderThan (date : Str) (e : RarExe) : Bool := !strLe date e.date

/-- main.py:1762-1780 `get_rar_executables` for a date, when no file was rebuilt before. -/
def executablesFor (repo : List RarExe) (date : Str) : List RarExe := rarExecutables (RarExe.olderThan date) [] repo

/-- preprardir.py:195-206 `VersionTag`. -/
structure RarTag where
  large : Nat
  small : Nat
  beta : Option Str
  x64 : Bool
  deriving DecidableEq, Repr

/-- `%0wd`. -/
def zeroPad (w n : Nat) : Str :=
  let t := str (toString n)
  List.replicate (w - t.length) 0x30 ++ t

/-- preprardir.py:208-209 `__str__`. -/
def RarTag.text (t : RarTag) : Str := str (toString t.large) ++ zeroPad 2 t.small ++ t.beta.getD []

/-- `[a-zA-Z]`. -/
def asciiLetter (c : Nat) : Bool := (0x41 ≤ c && c ≤ 0x5A) || (0x61 ≤ c && c ≤ 0x7A)

/-- `(?P<x64>…)?` with these characters.  What follows in the patterns never starts like them, so there is nothing to try again. -/
def optLit (lit s : Str) : Bool × Str :=
  match skipLit lit s with
  | some r => (true, r)
  | none => (false, s)

/-- `(?P<beta>b\d)?`, taken or left out. -/
def betaWay (dv : Nat → Option Nat) (taken : Bool) (s : Str) : Option (Option Str × Str) :=
  if taken then (takeBeta dv s).map fun x => (some x.1, x.2) else some (none, s)

/-- preprardir.py:215-216: `(?P<small>\d\d?)(?P<beta>b\d)?.+` with `n` digits and with or without the beta. -/
def windowsWay (dv : Nat → Option Nat) (s : Str) (n : Nat) (taken : Bool) : Option (Str × Option Str) :=
  match takeDigits dv n s with
  | none => none
  | some (small, s1) =>
    match betaWay dv taken s1 with
    | none => none
    | some (beta, s2) => if (s2.head?.map rxDot).getD false then some (small, beta) else none

/-- The first of the ways in which a pattern matches. -/
def firstWay {α : Type} : List (Option α) → Option α
  | [] => none
  | some a :: _ => some a
  | none :: l => firstWay l

/-- preprardir.py:219-221 and 228-232: a zero is added to one digit. -/
def tagOf (dv : Nat → Option Nat) (large small : Str) (beta : Option Str) (x64 : Bool) : RarTag :=
  { large := digitsValue dv large,
    small := if small.length = 1 then 10 * digitsValue dv small else digitsValue dv small,
    beta := beta, x64 := x64 }

/-- preprardir.py:213-221: names of Windows archives.  The letters are taken as far as they go: a digit or a dash follows. -/
def windowsTag (dv : Nat → Option Nat) (name : Str) : Option RarTag :=
  if (name.takeWhile asciiLetter).isEmpty then none
  else
    let (x64, s1) := optLit (str "-x64-") (name.dropWhile asciiLetter)
    match takeDigits dv 1 s1 with
    | none => none
    | some (large, s2) =>
      (firstWay [windowsWay dv s2 2 true, windowsWay dv s2 2 false, windowsWay dv s2 1 true, windowsWay dv s2 1 false]).map
        fun x => tagOf dv large x.1 x.2 x64

/-- preprardir.py:224: `\d(\.\d)?`, with or without the second digit; the dot is left out (231). -/
def smallWay (dv : Nat → Option Nat) (two : Bool) (s : Str) : Option (Str × Str) :=
  match takeDigits dv 1 s with
  | none => none
  | some (a, s1) =>
    if two then
      match skipLit (str ".") s1 with
      | none => none
      | some s2 => (takeDigits dv 1 s2).map fun x => (a ++ x.1, x.2)
    else some (a, s1)

/-- preprardir.py:225: `\.tar.gz`. -/
def isTarGz (s : Str) : Bool :=
  match skipLit (str ".tar") s with
  | some (c :: r) => rxDot c && (skipLit (str "gz") r).isSome
  | _ => false

/-- preprardir.py:224-225: `(?P<small>\d(\.\d)?)\.?(?P<beta>b\d)?\.tar.gz`. -/
def linuxWay (dv : Nat → Option Nat) (s : Str) (two dot taken : Bool) : Option (Str × Option Str) :=
  match smallWay dv two s with
  | none => none
  | some (small, s1) =>
    match (if dot then skipLit (str ".") s1 else some s1) with
    | none => none
    | some s2 =>
      match betaWay dv taken s2 with
      | none => none
      | some (beta, s3) => if isTarGz s3 then some (small, beta) else none

/-- preprardir.py:222-232: names of archives for Linux, OS X and BSD. -/
def linuxTag (dv : Nat → Option Nat) (name : Str) : Option RarTag :=
  match firstWay [skipLit (str "rarosx-") name, skipLit (str "rarlinux-") name, skipLit (str "rarbsd-") name] with
  | none => none
  | some s1 =>
    let (x64, s2) := optLit (str "x64-") s1
    match takeDigits dv 1 s2 with
    | none => none
    | some (large, s3) =>
      match skipLit (str ".") s3 with
      | none => none
      | some s4 =>
        (firstWay [linuxWay dv s4 true true true, linuxWay dv s4 true true false, linuxWay dv s4 true false true, linuxWay dv s4 true false false,
          linuxWay dv s4 false true true, linuxWay dv s4 false true false, linuxWay dv s4 false false true,
          linuxWay dv s4 false false false]).map fun x => tagOf dv large x.1 x.2 x64

/-- preprardir.py:211-233 `versiontag`. -/
def versionTag (dv : Nat → Option Nat) (name : Str) : Option RarTag :=
  match windowsTag dv name with
  | some t => some t
  | none => linuxTag dv name

/-- A file in the folder of archives. -/
structure RarSource where
  name : Str
  /-- The blocks that `RarReader(file_name, enable_sfx=True)` gives, and the exception at the end: `none` for a block without a file name or
  date, otherwise name, year, month and day. -/
  blocks : List (Option (Str × Nat × Nat × Nat)) × Option Err
  /-- Is it a tar archive, is `rar/rar` in it, its date (`%Y-%m-%d`) and contents. -/
  tar : Option (Option (Str × Bytes))
  /-- What UnRAR extracts, and its exit code. -/
  unpacked : Bytes
  code : Int

/-- preprardir.py:182. -/
def rarMembers : List Str := [str "Rar.exe", str "Rar.Exe", str "rar\\rar", str "rar"]

/-- preprardir.py:180-187: the loop over the blocks.  An exception for a block is passed over. -/
def memberLoop : List (Option (Str × Nat × Nat × Nat)) × Option Err → Res (Option (Str × Str))
  | ([], none) => .ok none
  | ([], some e) => .error e
  | (none :: l, e) => memberLoop (l, e)
  | (some (n, y, m, d) :: l, e) =>
    if rarMembers.contains n then
      match joinpath (splitOn 0x5C n) [] with
      | .ok osName => .ok (some (str (toString y) ++ str "-" ++ zeroPad 2 m ++ str "-" ++ zeroPad 2 d, osName))
      | .error _ => memberLoop (l, e)
    else memberLoop (l, e)

/-- preprardir.py:178-193 `get_rar_date_name`. -/
def dateName (a : RarSource) : Res (Option (Str × Str)) :=
  if endsWith a.name (str ".exe") || endsWith a.name (str ".sfx") then memberLoop a.blocks
  else
    match a.tar with
    | some (some (d, _)) => .ok (some (d, str "rar/rar"))
    | some none => .error .keyError
    | none => .ok none

/-- preprardir.py:115-122: the archives that are used. -/
def accepted (dv : Nat → Option Nat) (beta : Bool) (name : Str) : Option RarTag :=
  match versionTag dv name with
  | none => none
  | some t =>
    if !isIn (str ".exe") name && !isIn (str ".tar.gz") name && !isIn (str ".sfx") name then none
    else if t.large < 2 then none
    else if !beta && t.beta.isSome then none
    else some t

/-- preprardir.py:127, 142-145: the name of the executable. -/
def exeName (a : RarSource) (t : RarTag) (date : Str) : Str :=
  if a.tar.isSome then date ++ str "_rar" ++ t.text
  else if isIn (str ".sfx") a.name then date ++ str "_rar" ++ t.text
  else date ++ str "_rar" ++ t.text ++ str ".exe"

/-- main.py:1681-1694: the exit codes with a text. -/
def knownCodes : List Int := [0, 1, 2, 3, 4, 5, 6, 7, 8, 9, 10, 255]

/-- preprardir.py:114-176: one file of the folder.  The executable is extracted to its own name and renamed, which replaces a file of the new
name.  `dest` is an absolute path without a slash at the end; that it has no folder `rar` already is assumed (140). -/
def prepOne (dv : Nat → Option Nat) (beta : Bool) (dest : Path) (fs : FS) (a : RarSource) : Res FS :=
  match accepted dv beta a.name with
  | none => .ok fs
  | some t =>
    match dateName a with
    | .error e => .error e
    | .ok none => .ok fs
    | .ok (some (date, member)) =>
      match a.tar with
      | some none => .error .keyError
      | some (some (_, bytes)) => .ok (((fs.set (posixJoin2 dest (str "rar/rar")) none).set (posixJoin2 dest (exeName a t date)) (some bytes)))
      | none =>
        if a.code = 0 ∨ a.code = 1 then
          .ok ((fs.set (posixJoin2 dest (basename member)) none).set (posixJoin2 dest (exeName a t date)) (some a.unpacked))
        else if knownCodes.contains a.code then .ok (fs.set (posixJoin2 dest member) none)
        else .error .keyError

/-- preprardir.py:112-176 `extract_rarbin`: the files after it and the exception that ended it. -/
def prepAll (dv : Nat → Option Nat) (beta : Bool) (dest : Path) : FS → List RarSource → FS × Option Err
  | fs, [] => (fs, none)
  | fs, a :: l =>
    match prepOne dv beta dest fs a with
    | .error e => (fs, some e)
    | .ok fs' => prepAll dv beta dest fs' l

end Rescene
