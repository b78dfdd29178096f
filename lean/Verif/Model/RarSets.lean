import Verif.Model.RarSearch
/-
Which blocks of an SRR file belong to the archive of a compressed file and how its packed data is
prepared: /repo/rescene/main.py:1723-1728, 1998-2136, 2466-2512 and 2678-2708.
-/
namespace Rescene

/-- A block of an SRR file as main.py:2100-2124 sees it. -/
inductive SetBlock where
  /-- `SrrRarFile`: the name of a volume. -/
  | volume (name : Str)
  /-- `RarPackedFile`. -/
  | file (p : PackedPart)
  | other
  deriving DecidableEq, Repr

/-- main.py:2132: `\.part\d*$` with `re.I` matches here. -/
def isPartTail (dig : Nat → Bool) (s : Str) : Bool :=
  (str ".part").isPrefixOf ((s.take 5).map fun c => if 65 ≤ c ∧ c ≤ 90 then c + 32 else c) &&
  ((s.drop 5).all dig || ((s.drop 5).getLast? == some 10 && (s.drop 5).dropLast.all dig))

/-- main.py:2132: group 1 of `(.*)\.part\d*$`: the longest beginning without newline. -/
def partBase (dig : Nat → Bool) : Str → Option Str
  | [] => none
  | c :: s =>
    match if c = 10 then none else partBase dig s with
    | some p => some (c :: p)
    | none => if isPartTail dig (c :: s) then some [] else none

/-- main.py:2126-2136 `get_set`. -/
def getSet (dig : Nat → Bool) (name : Str) : Str :=
  let n := name.take (name.length - 4)
  match partBase dig n with
  | some p => p
  | none => n

/-- main.py:2100-2124 `get_archived_file_blocks`: the loop.  `cur` is the number of the current
block, `k` the number of the next one; then `result`, `current_set` and `set_current_block`. -/
def setLoop (dig : Nat → Bool) (cur : Nat) : Nat → List SetBlock → List PackedPart → Str → Str → List PackedPart
  | _, [], result, _, _ => result
  | k, .other :: bs, result, cset, scur => setLoop dig cur (k + 1) bs result cset (if k = cur then cset else scur)
  | k, .file p :: bs, result, cset, scur => setLoop dig cur (k + 1) bs (result ++ [p]) cset (if k = cur then cset else scur)
  | k, .volume n :: bs, result, cset, scur =>
    if getSet dig n ≠ cset then
      if (if k = cur then cset else scur) = [] then setLoop dig cur (k + 1) bs [] (getSet dig n) (if k = cur then cset else scur)
      else result
    else setLoop dig cur (k + 1) bs result cset (if k = cur then cset else scur)

/-- main.py:2100-2124 `get_archived_file_blocks`. -/
def setBlocks (dig : Nat → Bool) (blocks : List SetBlock) (cur : Nat) : List PackedPart := setLoop dig cur 0 blocks [] [] []

/-- main.py:2079-2087 `next_block`; a block is given by its number. -/
def nextBlock (i : Nat) (blocks : List PackedPart) : Option PackedPart := blocks[i + 1]?

/-- main.py:2066-2077 `followed_by_solid_block`. -/
def followedBySolid (i : Nat) (blocks : List PackedPart) : Option PackedPart :=
  match blocks[i + 1]? with
  | some p => if p.flags &&& 0x10 ≠ 0 then some p else none
  | none => none

/-- main.py:2089-2098 `previous_block`. -/
def previousBlock (i : Nat) (b : PackedPart) (blocks : List PackedPart) : PackedPart :=
  match i with
  | 0 => b
  | j + 1 => match blocks[j]? with | some p => p | none => b

/-- How the factory prepares the data of a file. -/
inductive Plan where
  /-- A new solid archive that begins with this file; the file behind is added. -/
  | solidFirst (next : PackedPart)
  /-- One more file of the solid archive that was made for the first file of the set. -/
  | solidMore (next : Option PackedPart)
  /-- An archive of its own; the file behind, if any, can be added. -/
  | alone (next : Option PackedPart)
  deriving DecidableEq, Repr

/-- main.py:2009-2054 `compressed_rar_file_factory`: what is made for block `i` of the set, when
all files are found.  `known` tells which names are in `archived_files`; without the first file of
the set there is a `KeyError`. -/
def factoryPlan (known : Str → Bool) (i : Nat) (b : PackedPart) (blocks : List PackedPart) : Res Plan :=
  match followedBySolid i blocks, decide (b.flags &&& 0x10 ≠ 0) with
  | some f, false => .ok (.solidFirst f)
  | f, true =>
    if i ≠ 0 then
      match blocks with
      | [] => .error .indexError
      | first :: _ => if known first.name then .ok (.solidMore f) else .error .keyError
    else .ok (.alone (nextBlock i blocks))
  | none, false => .ok (.alone (nextBlock i blocks))

/-- main.py:2502-2508: again with more threads until the size is right. -/
def recompress (w : RarWorld) (v : RarVersion) (b : PackedPart) : Nat → RarArgs → Bytes → Res (RarArgs × Bytes)
  | 0, _, _ => .error .fuel
  | fuel + 1, a, d =>
    if d.length = b.psize then .ok (a, d)
    else if v.setsThreads then
      match increaseThreads w.settings v.major v.minor a.threads with
      | none => .ok (a, d)
      | some c =>
        match w.full v ({ a with threads := some c }.arglist v) with
        | .error e => .error e
        | .ok r => recompress w v b fuel { a with threads := some c } r.packed
    else .ok (a, d)

/-- main.py:2466-2511 `set_new`: the next file of a solid archive.  `a` has the files so far in
`store`: the list is shared with `source_files`. -/
def setNew (w : RarWorld) (v : RarVersion) (a : RarArgs) (srcName : Str) (b : PackedPart) (followup : Option Str) :
    Res (RarArgs × Bytes) := do
  let a := { a with store := a.store ++ srcName :: followup.toList, solid := b.flags &&& 0x10 ≠ 0 }
  let r ← w.full v (a.arglist v)
  let x ← recompress w v b 40 a r.packed
  if x.2.length ≠ b.psize then .error .valueError
  else .ok x

/-- main.py:1723-1728 `get_rar_data_object`: `archived_files.setdefault(name, …)`; the argument is
computed in any case.  Gives the object and what is known afterwards. -/
def dataObject {β : Type} (known : List (Str × β)) (name : Str) (make : Res β) : Res (β × List (Str × β)) := do
  let o ← make
  match known.lookup name with
  | some old => return (old, known)
  | none => return (o, known ++ [(name, o)])

/-- main.py:2678-2708 `CompressedRarFileAll.set_file` and `try_again`, which call each other, for
a file that is no directory.  `get` is the packed data of the file in the archive of all files
that is made with these parameters, `size` the full packed size in the SRR; `.other` is
`RarNotFound`. -/
def secondMethod (s : MtSettings) (v : RarVersion) (get : RarArgs → Res Bytes) (size : Nat) : Nat → RarArgs → Res (RarArgs × Bytes)
  | 0, _ => .error .fuel
  | fuel + 1, a =>
    match get a with
    | .error e => .error e
    | .ok d =>
      if size ≠ d.length then
        if v.setsThreads then
          match increaseThreads s v.major v.minor a.threads with
          | none => .error .other
          | some c => secondMethod s v get size fuel { a with threads := some c }
        else .error .other
      else .ok (a, d)

end Rescene
