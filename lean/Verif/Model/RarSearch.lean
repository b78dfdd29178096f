import Verif.Model.Compression
import Verif.Model.Crc
import Verif.Model.Volumes
/-
The search for the RAR executable that made a compressed file and the archive that is made with
it: /repo/rescene/main.py:1724-1760, 1782-1800, 1927-1996, 2138-2145 and 2149-2464.

`rar` itself is outside the code: the archive it makes of the given files with a command line is
an argument.  Floating point numbers (main.py:2221, 2312, 2424) are computed exactly.  The
messages on the screen and the temporary files apart from the test piece are left out.
-/
namespace Rescene

/-- main.py:1782-1800 `RarExecutable`.  `setsThreads` is what `supports_setting_threads`
(1810-1813) finds in its help text, `older` is `rarexec.date < date` for the date of the
archive (1767). -/
structure RarVersion where
  path : Str
  major : Nat
  minor : Nat
  setsThreads : Bool
  older : Bool
  deriving DecidableEq, Repr

/-- main.py:1858-1883 `RarArguments`; `threads` is `none` for the empty string. -/
structure RarArgs where
  level : Str
  dict : Str
  solid : Bool
  threads : Option Int
  split : Nat
  archive : Str
  before : List Str
  store : List Str
  after : List Str
  all : List Str
  deriving DecidableEq, Repr

/-- `re.search(needle, s) is not None` for a text without special characters. -/
def hasText (needle : Str) : Str → Bool
  | [] => needle.isEmpty
  | c :: s => needle.isPrefixOf (c :: s) || hasText needle s

/-- main.py:1990-1991 with the test of 2336: `-vn` but for the RAR 2 executables. -/
def namingFlag (v : RarVersion) : Str := if hasText (str "_rar2") v.path then [] else str "-vn"

/-- main.py:1993-1994 with the test of 2337. -/
def forceRar4 (v : RarVersion) : Str :=
  if hasText (str "_rar5") v.path || hasText (str "_rar6") v.path then str "-ma4" else []

/-- main.py:1931-1953 `arglist`, with the flags of 1990-1994 that are set for the executable
before each use. -/
def RarArgs.arglist (a : RarArgs) (v : RarVersion) : List Str :=
  ([str "a", a.level, a.dict, if a.solid then str "-s" else str "-s-", str "-ds",
    match a.threads with | none => [] | some c => str ("-mt" ++ toString c),
    namingFlag v, forceRar4 v, str "-o+", str "-ep", str "-idcd",
    if a.split = 0 then [] else str ("-v" ++ toString a.split ++ "b"),
    a.archive].filter (· ≠ []))
  ++ (if a.all ≠ [] then a.all else a.before ++ a.store ++ a.after)

/-- An archive that `rar` made: the packed data of the file that is asked for, over all volumes,
and the CRC and size fields of the file blocks in its first volume. -/
structure Archive where
  packed : Bytes
  heads : List (Nat × Nat)
  deriving DecidableEq, Repr

/-- A file block of the set that is reconstructed (rar.py:1032-1099). -/
structure PackedPart where
  name : Str
  flags : Nat
  method : Nat
  crc : Nat
  psize : Nat
  usize : Nat
  deriving DecidableEq, Repr

/-- What is outside the code.  `run` is what comes of a test piece, `full` of the files
themselves; an error is what `RarReader` or `RarStream` raise when no archive came of it. -/
structure RarWorld where
  settings : MtSettings
  repo : List RarVersion
  run : Bytes → RarVersion → List Str → Res Archive
  full : RarVersion → List Str → Res Archive

/-- main.py:2384-2394: the CRC of the first `start` bytes, read 8 KiB at a time. -/
def firstCrc : Nat → Nat → Bytes → BitVec 32 → Res (BitVec 32)
  | 0, _, _, _ => .error .fuel
  | fuel + 1, start, rest, crc =>
    if start = 0 then .ok crc
    else
      let n := if start > 8192 then 8192 else start
      firstCrc fuel (start - n) (rest.drop n) (crc32 (rest.take n) crc)

/-- main.py:2352-2416, without the branches for `old`, which are never reached (2428 raises
before).  A CRC of -1 is 0xFFFFFFFF after the mask of 2402. -/
def accepts (sizeMin crc : Nat) (a : Archive) : Res Bool := do
  if sizeMin > a.packed.length then return 0xFFFFFFFF == crc
  else if sizeMin = a.packed.length then
    return (match a.heads with | [] => 0 | h :: _ => h.1) == crc
  else
    let c ← firstCrc (sizeMin + 1) sizeMin a.packed 0
    return c.toNat == crc

/-- main.py:2335-2416 `try_rar_executable`. -/
def tryVersion (w : RarWorld) (piece : Bytes) (b : PackedPart) (v : RarVersion) (a : RarArgs) : Res Bool := do
  let r ← w.run piece v (a.arglist v)
  accepts b.psize b.crc r

/-- main.py:2431-2434: `while args.increase_thread_count(rar)`. -/
def threadLoop (w : RarWorld) (piece : Bytes) (b : PackedPart) (v : RarVersion) : Nat → RarArgs → Res (Option RarArgs)
  | 0, _ => .error .fuel
  | fuel + 1, a =>
    match increaseThreads w.settings v.major v.minor a.threads with
    | none => .ok none
    | some c =>
      match tryVersion w piece b v { a with threads := some c } with
      | .error e => .error e
      | .ok true => .ok (some { a with threads := some c })
      | .ok false => threadLoop w piece b v fuel { a with threads := some c }

/-- main.py:2429-2436 and, with another file before, 2451-2458. -/
def attempt (w : RarWorld) (piece : Bytes) (b : PackedPart) (v : RarVersion) (a : RarArgs) : Res (Option RarArgs) :=
  if v.setsThreads then threadLoop w piece b v 40 a
  else
    match tryVersion w piece b v a with
    | .error e => .error e
    | .ok true => .ok (some a)
    | .ok false => .ok none

/-- `archived_files`: the name of a file, the last of the files its data was made of and the
executable that was good for it. -/
abbrev Archived := List (Str × (Str × RarVersion))

/-- main.py:2273-2279 and 2442-2449: the file that is archived before this one.  `none`: there is
none to try. -/
def previousSource (archived : Archived) (blocks : List PackedPart) (i : Nat) : Res (Option Str) :=
  if archived = [] then .ok none
  else
    match i with
    | 0 => .ok none
    | j + 1 =>
      match blocks[j]? with
      | none => .ok none
      | some p =>
        match archived.lookup p.name with
        | none => .error .keyError
        | some x => .ok (some x.1)

/-- main.py:2425-2463: the loop over the executables. -/
def searchLoop (w : RarWorld) (piece : Bytes) (b : PackedPart) (prev : Res (Option Str)) :
    List RarVersion → RarArgs → Res (Option (RarVersion × RarArgs))
  | [], _ => .ok none
  | v :: vs, a =>
    match attempt w piece b v a with
    | .error e => .error e
    | .ok (some g) => .ok (some (v, g))
    | .ok none =>
      match prev with
      | .error e => .error e
      | .ok none => searchLoop w piece b prev vs { a with threads := none, before := [], after := [] }
      | .ok (some p) =>
        match attempt w piece b v { a with threads := none, before := [p] } with
        | .error e => .error e
        | .ok (some g) => .ok (some (v, g))
        | .ok none => searchLoop w piece b prev vs { a with threads := none, before := [], after := [] }

/-- main.py:2299-2330: enough of the source file for a test.  `amount` is the size for a step,
`packed` the size the newest executable makes of a piece. -/
def grabPiece (packed : Bytes → Res Nat) (src : Bytes) (sizeFull sizeMin : Nat) (amount : Nat → Nat) :
    List Nat → Bytes → Res Bytes
  | [], piece => .ok piece
  | i :: is, _ =>
    let n := min sizeFull (amount i)
    if n = sizeFull then .ok (src.take n)
    else
      match packed (src.take n) with
      | .error e => .error e
      | .ok s => if s ≥ sizeMin then .ok (src.take n) else grabPiece packed src sizeFull sizeMin amount is (src.take n)

/-- main.py:2299 `range(2, 100, 5)`. -/
def growSteps : List Nat := (List.range 20).map fun k => 2 + 5 * k

/-- main.py:2300-2301; the division by zero is caught by `searchVersion`. -/
def pieceAmount (sizeFull sizeCompr sizeMin window i : Nat) : Nat :=
  sizeMin * (100 * sizeFull + i * sizeCompr) / (100 * sizeCompr) + window

/-- main.py:2317-2322: the packed size of the first file block. -/
def packedSizeOf (r : Archive) : Res Nat := match r.heads with | [] => .error .unboundLocal | h :: _ => .ok h.2

/-- main.py:2138-2145 on the blocks of the set. -/
def fullSize (b : PackedPart) (blocks : List PackedPart) : Nat :=
  fullPackedSize b.name 0 (blocks.map fun p => (p.name, p.psize))

/-- main.py:1771-1773: the executable that was good for the first file. -/
def previousGood (archived : Archived) : List RarVersion := match archived with | [] => [] | x :: _ => [x.2.2]

/-- main.py:2245-2464 `search_matching_rar_executable` for block `b`, number `i` of `blocks`.
`src` is the content of the source file, `srcName` its name, `out` and `pieceName` the names of
the archive and of the piece, `more` the file that is added behind (`more_files`); `sizeFull` is
the size of the file (2259 and 2268-2271). -/
def searchVersion (w : RarWorld) (archived : Archived) (blocks : List PackedPart) (i : Nat) (b : PackedPart)
    (src : Bytes) (out pieceName : Str) (sizeFull : Nat) (more : Option Str) : Res (Option (RarVersion × RarArgs)) := do
  let level ← compressionParameter b.method
  let args : RarArgs := { level := level, dict := dictParameter b.flags, solid := b.flags &&& 0x10 ≠ 0, threads := none,
                          split := 0, archive := out, before := [], store := [pieceName], after := [], all := [] }
  let versions := rarExecutables (·.older) (previousGood archived) w.repo
  if b.crc = 0xFFFFFFFF then
    match versions with
    | [] => .ok none
    | _ :: _ => .error .unboundLocal
  else
    match w.repo.getLast? with
    | none => .error .emptyRepo
    | some newest =>
      match dictSize b.flags with
      | none => .error .typeError
      | some window =>
        let sizeCompr := fullSize b blocks
        if sizeCompr = 0 then .error .other
        else
          match grabPiece (fun p => w.run p newest (args.arglist newest) >>= packedSizeOf) src sizeFull b.psize
              (pieceAmount sizeFull sizeCompr b.psize window) growSteps [] with
          | .error e => .error e
          | .ok piece =>
            searchLoop w piece b (previousSource archived blocks i) versions
              { args with after := more.toList, split := if piece.length ≠ sizeFull then piece.length * 3 / 5 else 0 }

/-- main.py:2217-2224: the size of the volumes when the packed data is larger than the file. -/
def volumeSplit (packed : Nat) : Nat :=
  let x := packed / 2 * 11 / 10
  if x > 4000000000 then 2000000000 else x

/-- main.py:2185-2189: again, with the next file added. -/
def searchAgain (w : RarWorld) (archived : Archived) (blocks : List PackedPart) (i : Nat) (b : PackedPart)
    (src : Bytes) (out pieceName : Str) (sizeFull : Nat) (next : Option Str) (solid : Bool) :
    Option (RarVersion × RarArgs) → Res (Option (RarVersion × RarArgs))
  | some f => .ok (some f)
  | none =>
    match next, solid with
    | some n, false => searchVersion w archived blocks i b src out pieceName sizeFull (some n)
    | _, _ => .ok none

/-- main.py:2157-2159 and 2186: `self.source_files`. -/
def sourceFiles (srcName : Str) (next : Option Str) (solid again : Bool) : List Str :=
  if solid || again then srcName :: next.toList else [srcName]

/-- main.py:2151-2243 `CompressedRarFile.__init__`; `.other` is `RarNotFound`.  `next` is the name
of the file behind this one, for `next_block` and `next_src`. -/
def compressedFile (w : RarWorld) (archived : Archived) (blocks : List PackedPart) (i : Nat) (b : PackedPart)
    (src : Bytes) (srcName out pieceName : Str) (sizeFull : Nat) (next : Option Str) (solid : Bool) :
    Res (RarVersion × RarArgs × Bytes) := do
  let first ← searchVersion w archived blocks i b src out pieceName sizeFull none
  let found ← searchAgain w archived blocks i b src out pieceName sizeFull next solid first
  match found with
  | none => .error .other
  | some (v, a) =>
    let size := fullSize b blocks
    let a := { a with split := if b.usize < size then volumeSplit size else a.split,
                      store := sourceFiles srcName next solid first.isNone, solid := solid }
    let r ← w.full v (a.arglist v)
    if r.packed.length ≠ size then .error .valueError
    else .ok (v, a, r.packed)

end Rescene
