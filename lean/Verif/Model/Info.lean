import Verif.Model.Create
import Verif.Model.Sfv
/-
What is in an SRR: /repo/rescene/main.py:961-1160.
-/
namespace Rescene

/-- `d[k] = v` on an ordered dictionary: a key that exists keeps its place. -/
def dictSet {α : Type} (d : List (Str × α)) (k : Str) (v : α) : List (Str × α) :=
  if d.any (fun x => x.1 == k) then d.map (fun x => if x.1 == k then (k, v) else x) else d ++ [(k, v)]

/-- The `FileInfo` of a volume. -/
structure RarInfo where
  key : Str
  name : Str
  size : Nat
  start : Nat
  stop : Nat
  crc : Option Str := none
  deriving DecidableEq, Repr

/-- The `FileInfo` of an archived file; `crc` is the number printed in it. -/
structure ArchInfo where
  name : Str
  size : Nat
  compressed : Bool
  crc : Nat
  deriving DecidableEq, Repr

/-- What `info` returns, and its variable `current_rar`.  The messages are not modelled. -/
structure Info where
  app : Str := []
  stored : List (Str × Nat) := []
  rars : List (Str × RarInfo) := []
  archived : List (Str × ArchInfo) := []
  recovery : Option (Str × Nat) := none
  sfvEntries : List SfvEntry := []
  sfvComments : List Str := []
  compression : Bool := false
  oso : List (Str × Nat × Nat) := []
  cur : Option RarInfo := none
  deriving DecidableEq, Repr

/-- main.py:988-1007: a stored file; `data` is the SRR. -/
def infoStored (lower : Str → Str) (data : Bytes) (i : Info) (b : Block) (size : Nat) (name : Str) : Info :=
  let i := { i with stored := dictSet i.stored name size, cur := none }
  if lower (name.drop (name.length - 4)) = str ".sfv" then
    let sfv := parseSfvData (readAt data (b.pos + b.hsize) size)
    { i with
      sfvEntries := i.sfvEntries ++ sfv.entries
      sfvComments := i.sfvComments ++ sfv.comments ++ sfv.errors }
  else i

/-- main.py:1008-1019: a RAR-file block. -/
def infoRar (lower : Str → Str) (i : Info) (b : Block) (name : Str) : Info :=
  let r : RarInfo := ⟨basename (lower name), name, 0, b.pos + b.hsize, b.pos + b.hsize, none⟩
  { i with cur := some r, rars := dictSet i.rars r.key r }

/-- main.py:1021-1037: the `FileInfo` of an archived file that is seen for the first time. -/
def newArch (f : FileFields) : ArchInfo :=
  ⟨f.name, if f.unpackedSize ≠ 0xFFFFFFFFFFFFFFFF ∧ f.unpackedSize ≠ 0xFFFFFFFF then f.unpackedSize else 0,
    f.method != 0x30, 0⟩

/-- main.py:1020-1048: a packed file. -/
def infoPacked (i : Info) (f : FileFields) : Info :=
  let old := i.archived.lookup f.name
  let a := old.getD (newArch f)
  let i := { i with compression := i.compression || (old.isNone && a.compressed) }
  let a := { a with size := if f.unpackedSize = 0xFFFFFFFF ∧ a.compressed = false then a.size + f.packedSize else a.size }
  let a := { a with size := if f.unpackedSize ≠ 0xFFFFFFFFFFFFFFFF ∧ a.size = 0 then f.unpackedSize else a.size }
  { i with archived := dictSet i.archived f.name { a with crc := f.fileCrc } }

/-- main.py:1050-1079: a NEWSUB block. -/
def infoNewSub (i : Info) (b : Block) (rr : Option (Nat × Nat)) : Res Info :=
  match rr with
  | none => .ok i
  | some (rs, ds) =>
    let (n, s) := i.recovery.getD (str "Protect+", 0)
    if b.addSize = 512 * rs + 2 * ds then .ok { i with recovery := some (n, s + (512 * rs + 2 * ds)) }
    else .error .assertError

/-- main.py:1081-1086: an old recovery record. -/
def infoOldRec (i : Info) (b : Block) : Info :=
  let (n, s) := i.recovery.getD (str "Protect!", 0)
  { i with recovery := some (n, s + b.addSize) }

/-- main.py:983-1105: the cases.  The second component is `add_size`. -/
def infoCase (lower : Str → Str) (data : Bytes) (i : Info) (b : Block) : Res (Info × Bool) :=
  if b.btype = 0x69 then
    match b.kind with
    | .srrHeader app => .ok ({ i with app := app, cur := none }, true)
    | _ => .error .attrError
  else if b.btype = 0x6A then
    match b.kind with
    | .stored size name => .ok (infoStored lower data i b size name, true)
    | _ => .error .attrError
  else if b.btype = 0x71 then
    match b.kind with
    | .rarFile name => .ok (infoRar lower i b name, false)
    | _ => .error .attrError
  else if b.btype = 0x74 then
    match b.kind with
    | .packed f => .ok (infoPacked i f, true)
    | _ => .error .attrError
  else if b.btype = 0x7A then
    match b.kind with
    | .newSub _ rr => do
      let i ← infoNewSub i b rr
      return (i, true)
    | _ => .error .attrError
  else if b.btype = 0x78 then .ok (infoOldRec i b, true)
  else if b.btype = 0x6B then
    match b.kind with
    | .oso size hash name => .ok ({ i with oso := i.oso ++ [(name, hash, size)], cur := none }, true)
    | _ => .error .attrError
  else .ok (i, true)

/-- main.py:1107-1117: the size and end of the volume. -/
def infoSize (i : Info) (b : Block) (add : Bool) : Info :=
  match i.cur with
  | none => i
  | some r =>
    let size := if add then r.size + (if b.btype ≠ 0x6C then b.hsize else 0) + b.addSize else r.size
    let r := { r with size := size, stop := b.pos + b.hsize }
    { i with cur := some r, rars := dictSet i.rars r.key r }

/-- main.py:983-1117: the body of the loop. -/
def infoBlock (lower : Str → Str) (data : Bytes) (i : Info) (b : Block) : Res Info := do
  let (i, add) ← infoCase lower data i b
  return infoSize i b add

/-- main.py:983-1117: the loop. -/
def infoLoop (lower : Str → Str) (data : Bytes) : Info → List Block → Res Info
  | i, [] => .ok i
  | i, b :: t => do
    let i ← infoBlock lower data i b
    infoLoop lower data i t

/-- main.py:1119-1127: one SFV entry; it is kept when it is not for one of the volumes.
`upper` is `str.upper`. -/
def infoSfv (lower upper : Str → Str) : List (Str × RarInfo) → List SfvEntry → List (Str × RarInfo) × List SfvEntry
  | rars, [] => (rars, [])
  | rars, e :: t =>
    let key := lower (basename e.fileName)
    match rars.lookup key with
    | some r => infoSfv lower upper (dictSet rars key { r with crc := some (upper e.crc) }) t
    | none =>
      let (rars, more) := infoSfv lower upper rars t
      (rars, e :: more)

/-- main.py:961-1135 `info`. -/
def info (lower upper : Str → Str) (data : Bytes) : Res Info := do
  let blocks ← readAll data
  let i ← infoLoop lower data {} blocks
  let (rars, entries) := infoSfv lower upper i.rars i.sfvEntries
  return { i with rars := rars, sfvEntries := entries }

/-- main.py:1137-1160 `content_hash`: `hash` is the hash algorithm on all the data fed to it.
`offset_end_rar` is always set, at the latest by the RAR-file block itself (main.py:1115). -/
def contentHash (lower upper : Str → Str) (hash : Bytes → Str) (data : Bytes) : Res Str := do
  let i ← info lower upper data
  let sorted := i.rars.mergeSort fun x y => decide (x.1 ≤ y.1)
  return hash (sorted.flatMap fun x => readAt data x.2.start (x.2.stop - x.2.start))

end Rescene
