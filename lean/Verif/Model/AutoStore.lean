import Verif.Model.Release
/-
Which files pyrescene stores, under which names and in which order: parts of `generate_srr` of
/repo/bin/pyrescene.py.
-/
namespace Rescene

/-- pyrescene.py:939-950: an NFO file with this name and size is stored.  `in ("no.nfo")` is a test for a part of
the text. -/
def nfoStored (lower : Str → Str) (name : Str) (size : Nat) : Bool :=
  !([str "imdb.nfo", str "tvmaze.nfo"].contains (lower name)) && !(isIn (lower name) (str "no.nfo") && size == 8)

/-- `s.rsplit(".", 1)[0]`. -/
def stem (s : Str) : Str :=
  if s.contains 0x2E then (s.reverse.dropWhile (· ≠ 0x2E)).tail.reverse else s

/-- `itertools.groupby`: the values and how often they follow each other. -/
def runs : List Str → List (Str × Nat)
  | [] => []
  | x :: l =>
    match runs l with
    | (y, n) :: r => if x = y then (y, n + 1) :: r else (x, 1) :: (y, n) :: r
    | [] => [(x, 1)]

/-- pyrescene.py:982-987 `same_srs_name`, on paths relative to the folder of the release. -/
def sameSrsNames (media : List Str) : List Str := ((runs (media.map stem)).filter fun r => decide (r.2 > 1)).map (·.1)

/-- pyrescene.py:1004-1009: the SRS file of a sample, relative to the working folder. -/
def srsName (media : List Str) (sample : Str) : Str :=
  if (sameSrsNames media).contains (stem sample) then sample ++ str ".srs" else stem sample ++ str ".srs"

/-- pyrescene.py:1159-1175: the list with the SFV files; `copy` gives the path in the working folder. -/
def withSfvs (copy : Str → Str) (copied sfvs main : List Str) : List Str :=
  copied ++ ((sfvs.filter fun s => !main.contains s).map copy ++ sfvs.flatMap fun s => (main.filter fun m => s == m).map fun _ => copy s)

/-- pyrescene.py:646-651 `key_sort_music_files`. -/
def musicKey (lower : Str → Str) (name : Str) : Str :=
  if lower (name.drop (name.length - 4)) = str ".nfo" then str "-" else name

/-- pyrescene.py:1179. -/
def musicSort (lower : Str → Str) (l : List Str) : List Str := (sortOn (l.map fun x => (musicKey lower x, x))).map (·.2)

/-- pyrescene.py:1187-1210: the SRS files that fail are taken out; `bad` says which fail. -/
def dropBad (lower : Str → Str) (bad : Str → Bool) (l : List Str) : List Str :=
  (l.filter fun f => lower (f.drop (f.length - 4)) == str ".srs" && bad f).foldl List.erase l

/-- The SFV file beside a file, in lower case. -/
def sfvBeside (lower : Str → Str) (f : Str) : Str := lower (f.take (f.length - 4)) ++ str ".sfv"

/-- pyrescene.py:1213-1218 `to_move`. -/
def toMove (lower : Str → Str) (l : List Str) : List Str :=
  l.filter fun f => [str ".srr", str ".rar"].contains (lower (f.drop (f.length - 4))) && (l.map lower).contains (sfvBeside lower f)

/-- pyrescene.py:1219-1223: one file is moved. -/
def moveOne (lower : Str → Str) (l : List Str) (f : Str) : Res (List Str) :=
  let rest := l.erase f
  match (rest.map lower).idxOf? (sfvBeside lower f) with
  | some i => .ok (rest.insertIdx i f)
  | none => .error .valueError

/-- pyrescene.py:1212-1223. -/
def moveUp (lower : Str → Str) (l : List Str) : Res (List Str) := (toMove lower l).foldlM (moveOne lower) l

/-- `copied_files.remove(f)`. -/
def removeItem (l : List Str) (f : Str) : Res (List Str) := if l.contains f then .ok (l.erase f) else .error .valueError

/-- pyrescene.py:1234-1241 for one file; `named` is the list of names to skip, `rx` the pattern. -/
def skipOne (named rx : Str → Bool) (l : List Str) (f : Str) : Res (List Str) := do
  let l ← if named f then removeItem l f else .ok l
  if rx f then removeItem l f else .ok l

/-- pyrescene.py:1233-1242. -/
def skipAll (named rx : Str → Bool) (l : List Str) : Res (List Str) := l.foldlM (skipOne named rx) l

/-- pyrescene.py:1159-1242: the list that `add_stored_files` gets. -/
def autoStored (lower : Str → Str) (copy : Str → Str) (music : Bool) (bad named rx : Str → Bool) (copied sfvs main : List Str) : Res (List Str) := do
  let l := withSfvs copy copied sfvs main
  let l ← if music then .ok (dropBad lower bad (musicSort lower l)) else moveUp lower l
  skipAll named rx l

end Rescene
