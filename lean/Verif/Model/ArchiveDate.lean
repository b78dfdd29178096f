import Verif.Model.RarRepo
/-
The date of an archive, for the RAR executables of which year to try first: `get_most_recent_date` of
/repo/rescene/main.py.
-/
namespace Rescene

/-- `"%d-%02d-%02d" % (date[0], date[1], date[2])` of main.py:2521. -/
def dayText (t : Nat × Nat × Nat) : Str := str (toString t.1) ++ str "-" ++ zeroPad 2 t.2.1 ++ str "-" ++ zeroPad 2 t.2.2

/-- `date[0], date[1], date[2]` of a tuple (year, month, day, hour, minute, second). -/
def dayOf (t : Nat × Nat × Nat × Nat × Nat × Nat) : Nat × Nat × Nat := (t.1, t.2.1, t.2.2.1)

/-- main.py:2517-2518: the five dates of a file block; `None` is `none` (rar.py:1068-1071 sets four to `None` when the header has
no extended times). -/
def fileDays (f : FileFields) : List (Option (Nat × Nat × Nat)) :=
  let e := f.times.getD ⟨none, none, none, none⟩
  [some (dayOf (parseDosTime f.datetime)), e.atime.map fun x => dayOf x.dos, e.mtime.map fun x => dayOf x.dos,
    e.ctime.map fun x => dayOf x.dos, e.arctime.map fun x => dayOf x.dos]

/-- main.py:2519-2523: one date. -/
def newerDay (best : Str) : Option (Nat × Nat × Nat) → Str
  | none => best
  | some t => if !strLe (dayText t) best then dayText t else best

/-- main.py:2515-2523: one block. -/
def newerBlock (best : Str) (b : Block) : Str :=
  match b.kind with
  | .packed f => (fileDays f).foldl newerDay best
  | _ => best

/-- main.py:2513-2524 `get_most_recent_date`. -/
def mostRecentDate (blocks : List Block) : Str := blocks.foldl newerBlock (str "1970-01-01")

end Rescene
