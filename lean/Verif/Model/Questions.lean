import Verif.Model.SrrCommand
import Verif.Model.SrsFiles
/-
The questions that srs, pyrescene.py and retag.py ask before files are replaced or folders are made.  The questions of srr are
`canOverwrite` in SrrCommand.  `answers` are the lines that the user types; what is printed is not modelled.
-/
namespace Rescene

/-- srs.py:48-56 `can_overwrite` with the option -y. -/
def srsAsk (lower : Str → Str) (fs : FS) (p : Path) (yes : Bool) (answers : List Str) : Res Bool :=
  if yes = false ∧ (fs p).isSome then askOverwrite lower answers else .ok true

/-- pyrescene.py:1616-1629 `can_overwrite` with the options -y and -n. -/
def autoAsk (lower : Str → Str) (fs : FS) (p : Path) (yes no : Bool) (answers : List Str) : Res Bool :=
  if yes = false ∧ (fs p).isSome then
    if no = true then .ok false else askOverwrite lower answers
  else .ok true

/-- retag.py:215-228 `can_overwrite` with the options -y and -n: for the files that are extracted from the SRR. -/
def tagAsk (lower : Str → Str) (fs : FS) (p : Path) (yes no : Bool) (answers : List Str) : Res Bool :=
  if yes = false ∧ no = false ∧ (fs p).isSome then askOverwrite lower answers
  else if no = true ∧ (fs p).isSome then .ok false
  else .ok true

/-- retag.py:136-141: the question of srs about the track, when retag.py runs it.  Only -y is passed on. -/
def tagTrackAsk (lower : Str → Str) (fs : FS) (p : Path) (yes _no : Bool) (answers : List Str) : Res Bool :=
  srsAsk lower fs p yes answers

/-- pyrescene.py:138-147 `can_create`. -/
def canCreate (lower : Str → Str) (fs : FS) (p : Path) (yes : Bool) (answers : List Str) : Res Bool :=
  if yes = false ∧ (fs p).isSome then askOverwrite lower answers else .ok true

/-- What becomes of the folder for the output. -/
inductive FolderEnd where
  | there      -- it exists already
  | made       -- it is made
  | stopped    -- exit status 1
  deriving DecidableEq, Repr

/-- pyrescene.py:1602-1613, of `main`: the options, and the folder for the output.  `isDir` says what is a folder. -/
def autoFolder (lower : Str → Str) (fs : FS) (isDir : Path → Bool) (p : Path) (yes no : Bool) (answers : List Str) : Res FolderEnd :=
  if yes = true ∧ no = true then .ok .stopped
  else if isDir p = false ∧ (fs p).isSome = false then
    match canCreate lower fs p yes answers with
    | .error e => .error e
    | .ok true => .ok .made
    | .ok false => .ok .stopped
  else .ok .there

end Rescene
