import Verif.Model.Sfv
import Verif.Model.Str
/-
The tools that move the files of NZB files around: /repo/usenet/nzb_split.py, nzb_merge.py, nzb_rename.py.

`α` is a `file` element of an NZB (poster, date, subject, groups and segments).  Simplified: an NZB that `add_file` and `get_xml`
wrote is read by `read_nzb` as the same elements, and other NZB files in a folder are documents too.  Python 2: with Python 3 the
bytes of `get_xml` cannot be written to a file opened with "w" (TypeError, and the file is empty).
-/
namespace Rescene

/-- What is in an .nzb file: nothing at all (a file that was opened for writing only), or a document.  An empty file cannot be read:
nzb_utils.py:62-64 adds the closing tag, so it is not seen as empty at line 66 and parsing raises. -/
inductive Nzb (α : Type) where
  | empty
  | doc (files : List α)
deriving DecidableEq

/-- A folder: its .nzb files by name. -/
abbrev NzbDir (α : Type) := Str → Option (Nzb α)

/-- Set one entry of a folder or dictionary. -/
def setKey {β : Type} (d : Str → Option β) (k : Str) (v : Option β) : Str → Option β := fun x => if x = k then v else d x

/-- nzb_split.py:163-173: characters that cannot be in a file name become `_`; none at both ends. -/
def cleanRel (base : Str) : Str :=
  strip (· == 0x5F) (base.map fun c => if c ∈ str "?*:\"<>|/\\" then 0x5F else c)

/-- nzb_split.py:177-178, 208-209: the file of a release in the output folder. -/
def nzbName (rel : Str) : Str := rel.filter (· != 0x22) ++ str ".nzb"

/-- nzb_split.py:128-129: `reldict`, `current_rel` and the output folder. -/
structure Split (α : Type) where
  disk : NzbDir α
  dict : Str → Option (List α)
  cur : Str

/-- nzb_split.py:181-185, 190-193, 210-214: `open(new, "w")` empties the file; `reldict.pop` raises KeyError when the release is not there,
which is caught; otherwise the files are written behind `old`. -/
def splitWrite {α : Type} (s : Split α) (old : List α) : Split α :=
  { s with disk := setKey s.disk (nzbName s.cur) (some (match s.dict s.cur with | none => .empty | some l => .doc (old ++ l)))
           dict := setKey s.dict s.cur none }

/-- nzb_split.py:176-195: the release before this one is written.  `none`: `read_nzb` raises (not caught). -/
def splitFlush {α : Type} (s : Split α) : Option (Split α) :=
  match s.disk (nzbName s.cur) with
  | none => if s.cur = [] then some s else some (splitWrite s [])
  | some .empty => none
  | some (.doc old) => some (splitWrite s old)

/-- nzb_split.py:132-203: one file of the NZB.  `base` is the name found for it (lines 133-162; the regular expressions are not modelled:
any function); `none` when there is none ("Failed"). -/
def splitStep {α : Type} (base : α → Option Str) (s : Split α) (f : α) : Option (Split α) :=
  match base f with
  | none => some s
  | some b => do
    let r := cleanRel b
    let s ← if r = s.cur then some s else (splitFlush s).map fun s => { s with cur := r }
    return { s with dict := setKey s.dict r (some ((s.dict r).getD [] ++ [f])) }

/-- nzb_split.py:132-203: the loop. -/
def splitLoop {α : Type} (base : α → Option Str) : Split α → List α → Option (Split α)
  | s, [] => some s
  | s, f :: t => do
    let s ← splitStep base s f
    splitLoop base s t

/-- nzb_split.py:126-216 `main`: the output folder afterwards. -/
def nzbSplit {α : Type} (base : α → Option Str) (disk : NzbDir α) (files : List α) : Option (NzbDir α) := do
  let s ← splitLoop base ⟨disk, fun _ => none, []⟩ files
  return (splitWrite s []).disk

/-- nzb_merge.py:36-37: `e[-4:].lower() == ".nzb"`.  Simplified: no folder has such a name (`os.path.isdir(e)` looks in the working
directory and not in the folder). -/
def isNzbName (lower : Str → Str) (e : Str) : Bool := lower (e.drop (e.length - 4)) == str ".nzb"

/-- nzb_merge.py:38, 41-43: `read_nzb` of each. -/
def readNzbs {α : Type} (disk : NzbDir α) : List Str → Option (List α)
  | [] => some []
  | n :: t => match disk n with
    | some (.doc l) => (readNzbs disk t).map (l ++ ·)
    | _ => none

/-- nzb_merge.py:54-57: the folder after each removal. -/
def removeStates {α : Type} : NzbDir α → List Str → List (NzbDir α)
  | _, [] => []
  | disk, n :: t => setKey disk n none :: removeStates (setKey disk n none) t

/-- nzb_merge.py:35-57 `merge_nzbs`: the folder after each change (opening the file, writing it, each removal).  `listdir` are the names
in the folder.  `none`: `read_nzb` raises. -/
def nzbMerge {α : Type} (lower : Str → Str) (disk : NzbDir α) (listdir : List Str) : Option (List (NzbDir α)) :=
  match (listdir.filter (isNzbName lower)).mergeSort fun a b => decide (a.length ≤ b.length) with
  | first :: second :: t =>
    (readNzbs disk (first :: second :: t)).map fun all =>
      let opened := setKey disk first (some .empty)
      let written := setKey disk first (some (.doc all))
      opened :: written :: removeStates written (second :: t)
  | _ => some []

/-- nzb_rename.py:28-29, 34-36: the input folder and its two output folders, which are there.  `β` is the contents of a file. -/
structure RenameDirs (β : Type) where
  inp : Str → Option β
  music : Str → Option β
  other : Str → Option β

/-- nzb_rename.py:43-46. -/
def RenameDirs.out {β : Type} (d : RenameDirs β) (m : Bool) : Str → Option β := if m then d.music else d.other

/-- Change an output folder. -/
def RenameDirs.setOut {β : Type} (d : RenameDirs β) (m : Bool) (o : Str → Option β) : RenameDirs β :=
  if m then { d with music := o } else { d with other := o }

/-- nzb_rename.py:39-53: one name of the input folder.  `process` is `process_nzb` (lines 57-71): the new name and whether there is music;
`none` when it raises (caught, as are the errors of `shutil.move`, which refuses to overwrite).  `os.rename` overwrites. -/
def renameStep {β : Type} (process : β → Option (Str × Bool)) (d : RenameDirs β) (n : Str) : RenameDirs β :=
  if (str ".nzb").isSuffixOf n then
    match d.inp n with
    | none => d
    | some c => match process c with
      | none => d
      | some (new, m) =>
        if (d.out m n).isSome then d
        else { d.setOut m (setKey (d.out m) (new ++ str ".nzb") (some c)) with inp := setKey d.inp n none }
  else d

/-- nzb_rename.py:39: `for nzb_file in os.listdir(input_dir)`. -/
def nzbRename {β : Type} (process : β → Option (Str × Bool)) (d : RenameDirs β) (listdir : List Str) : RenameDirs β :=
  listdir.foldl (renameStep process) d

end Rescene
