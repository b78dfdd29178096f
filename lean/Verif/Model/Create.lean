import Verif.Model.Streams
import Verif.Model.Files
import Verif.Model.Paths
/-
Creating SRR files: /repo/rescene/main.py:452-640.
-/
namespace Rescene

/-- main.py:1654-1661 `_is_recovery`.  A NEWSUB block with a header of 7 bytes has no attribute
`is_recovery`. -/
def isRecBlock (b : Block) : Res Bool :=
  if b.btype = 0x7A then
    match b.kind with
    | .newSub _ rr => .ok rr.isSome
    | _ => .error .attrError
  else .ok (b.btype == 0x78)

/-- The attributes `recovery_sectors` and `data_sectors` of a recovery block. -/
def recSectorsOf (b : Block) : Res (Nat × Nat) :=
  match b.kind with
  | .newSub _ (some p) => .ok p
  | .oldRec _ _ rs ds => .ok (rs, ds)
  | _ => .error .attrError

/-- `d.setdefault(k, v)` on an ordered dictionary. -/
def setDefault {α : Type} (d : List (Str × α)) (k : Str) (v : α) : List (Str × α) :=
  if d.any (fun x => x.1 == k) then d else d ++ [(k, v)]

/-- A volume of `rarfiles` (main.py:516-530): the path in the list, the path on disk, and the
name for the SRR (both from `capitalized_fn`). -/
structure RarIn where
  rar : Path
  exact : Path
  name : Str

/-- main.py:541-567: what is done with a block before it is written; returns `oso_dict`. -/
def createBlock (compressed : Bool) (rar : Path) (oso : List (Str × Path)) (b : Block) : Res (List (Str × Path)) :=
  if b.btype = 0x74 then
    match b.kind with
    | .packed f =>
      if f.method ≠ 0x30 then
        if compressed then .ok oso else .error .valueError
      else do
        let n ← osFileNameRar f.name
        return setDefault oso n rar
    | _ => .error .attrError
  else do
    let r ← isRecBlock b
    if r then do
      let _ ← recSectorsOf b
      return oso
    else return oso

/-- main.py:540-567: the blocks of one volume. -/
def createBlocks (compressed : Bool) (rar : Path) : List (Str × Path) → List Block → Res (Bytes × List (Str × Path))
  | oso, [] => .ok ([], oso)
  | oso, b :: t => do
    let oso ← createBlock compressed rar oso b
    let (more, oso) ← createBlocks compressed rar oso t
    return (b.raw ++ more, oso)

/-- main.py:516-567: the loop over the volumes. -/
def createVolumes (fs : FS) (compressed : Bool) : List (Str × Path) → List RarIn → Res (Bytes × List (Str × Path))
  | oso, [] => .ok ([], oso)
  | oso, v :: t =>
    match fs v.exact with
    | none => .error .fileNotFound
    | some data => do
      let hdr ← mkRarFile v.name
      let blocks ← readAll data
      let (raws, oso) ← createBlocks compressed v.rar oso blocks
      let (more, oso) ← createVolumes fs compressed oso t
      return (hdr ++ (raws ++ more), oso)

/-- `os.path.splitext(p)[1]`: from the last dot of the last path element, if something else
than dots precedes it. -/
def extOf (p : Str) : Str :=
  let b := (basename p).reverse
  let tail := b.takeWhile (· != 0x2E)
  match b.dropWhile (· != 0x2E) with
  | [] => []
  | _ :: front => if front.any (· != 0x2E) then 0x2E :: tail.reverse else []

/-- utility.py:139-142 `FileType.VideoExtensions`. -/
def videoExtensions : List Str :=
  [".mp4", ".m4v", ".avi", ".mkv", ".wmv", ".vob", ".m2ts", ".ts", ".mpeg", ".mpg", ".m2v", ".m2p"].map str

/-- `int(s, 16)` for a string of lower case hexadecimal digits. -/
def intHex (s : Str) : Nat := s.foldl (fun a c => 16 * a + (if c < 0x3A then c - 0x30 else c - 0x57)) 0

/-- osohash.py:52-58 `osohash_from(rarname, fname, True)`. -/
def osoHashFrom (dig : Nat → Bool) (fs : FS) (fuel : Nat) (rar : Path) (name : Str) : Res (Str × Nat) := do
  let s ← rsOpen dig fs fuel rar (some name) true false
  osoHash RStream.step s

/-- main.py:576-582: one OSO block; ValueError (UnicodeEncodeError is one) and AttributeError
are caught. -/
def osoPiece (dig : Nat → Bool) (fs : FS) (fuel : Nat) (rar : Path) (name : Str) : Res Bytes :=
  let r : Res Bytes := do
    let (h, size) ← osoHashFrom dig fs fuel rar name
    mkOso size (basename name) (intHex h)
  match r with
  | .error .valueError => .ok []
  | .error .attrError => .ok []
  | .error .unicodeError => .ok []
  | r => r

/-- main.py:570-582: the OSO hashes. -/
def osoPieces (dig : Nat → Bool) (lower : Str → Str) (fs : FS) (fuel : Nat) : List (Str × Path) → Res Bytes
  | [] => .ok []
  | (name, rar) :: t =>
    if videoExtensions.contains (lower (extOf name)) then do
      let a ← osoPiece dig fs fuel rar name
      let more ← osoPieces dig lower fs fuel t
      return a ++ more
    else osoPieces dig lower fs fuel t

/-- main.py:502-506, 1569-1599 `_store` of the files found: name in the SRR and path. -/
def storeAll (fs : FS) : List (Str × Path) → Res Bytes
  | [] => .ok []
  | (name, p) :: t =>
    match fs p with
    | none => .error .envError
    | some data => do
      let h ← mkStored name data.length
      let more ← storeAll fs t
      return h ++ (data ++ more)

/-- main.py:452-586 `create_srr`: the contents of the SRR written.  Which files are stored under
which names (`_search`, `_store`), which volumes belong to the input (`_handle_sfv`,
`_handle_rar`) and `capitalized_fn` are arguments here; `dig` and `lower` are `\d` and
`str.lower`, `fuel` bounds the number of volumes. -/
def createSrr (dig : Nat → Bool) (lower : Str → Str) (fuel : Nat) (fs : FS) (app : Str)
    (stored : List (Str × Path)) (rars : List RarIn) (compressed oso : Bool) : Res Bytes := do
  let h ← mkSrrHeader app
  let s ← storeAll fs stored
  let (v, dict) ← createVolumes fs compressed [] rars
  let o ← (if oso then osoPieces dig lower fs fuel dict else .ok [] : Res Bytes)
  return h ++ (s ++ (v ++ o))

/-- main.py:588-640 `create_srr_single_volume`. -/
def createSingle (fs : FS) (app : Str) (infile : Path) : Res Bytes := do
  let h ← mkSrrHeader app
  match fs infile with
  | none => throw .fileNotFound
  | some data => do
    let r ← mkRarFile (basename infile)
    let blocks ← readAll data
    return h ++ (r ++ (blocks.map (·.raw)).flatten)

end Rescene
