import Verif.Model.SrrSort
/-
The option -m of /repo/bin/srr_sort.py: SRR files with more archived files than archives.
-/
namespace Rescene

/-- A dot of a regular expression: anything but the end of a line. -/
def notEol (c : Nat) : Bool := c != 0x0A

/-- `$`: the end, or the end of a line at the end. -/
def atEol (s : Str) : Bool := s.isEmpty || s == [0x0A]

/-- A word of the pattern with `re.IGNORECASE`; `ci p c` says whether the character `p` of the pattern matches `c`. -/
def wordCi (ci : Nat → Nat → Bool) : Str → Str → Option Str
  | [], s => some s
  | _ :: _, [] => none
  | p :: w, c :: s => if ci p c then wordCi ci w s else none

/-- `.rar` and `$`. -/
def rarTail (ci : Nat → Nat → Bool) : Str → Bool
  | [] => false
  | c :: s => notEol c && (match wordCi ci (str "rar") s with | some r => atEol r | none => false)

/-- `\d+.rar$`: the digits may be given back, as the dot also matches a digit. -/
def numberTail (dig : Nat → Bool) (ci : Nat → Nat → Bool) : Str → Bool
  | [] => false
  | c :: s => dig c && (rarTail ci s || numberTail dig ci s)

/-- `.part\d+.rar$`. -/
def partTail (dig : Nat → Bool) (ci : Nat → Nat → Bool) : Str → Bool
  | [] => false
  | c :: s => notEol c && (match wordCi ci (str "part") s with | some r => numberTail dig ci r | none => false)

/-- `.[rstuv]\d\d$`. -/
def oldTail (dig : Nat → Bool) (ci : Nat → Nat → Bool) : Str → Bool
  | c :: l :: d :: e :: r => notEol c && (str "rstuv").any (fun p => ci p l) && dig d && dig e && atEol r
  | _ => false

/-- srr_sort.py:133: the second group of the pattern and `$`. -/
def setTail (dig : Nat → Bool) (ci : Nat → Nat → Bool) (s : Str) : Bool := partTail dig ci s || oldTail dig ci s || rarTail ci s

/-- srr_sort.py:133-134: the first group, which is as short as possible; `none` when the pattern does not match. -/
def setBase (dig : Nat → Bool) (ci : Nat → Nat → Bool) : Str → Option Str
  | [] => none
  | c :: s => if setTail dig ci (c :: s) then some [] else if notEol c then (setBase dig ci s).map (c :: ·) else none

/-- srr_sort.py:131-136: the loop over the names of the volumes; `re.match` gives `None`, which has no `group`, for other names. -/
def setsLoop (dig : Nat → Bool) (ci : Nat → Nat → Bool) : List Str → List Str → Res (List Str)
  | sets, [] => .ok sets
  | sets, f :: l =>
    match setBase dig ci f with
    | none => .error .attrError
    | some b => setsLoop dig ci (if sets.contains b then sets else sets ++ [b]) l

/-- srr_sort.py:124-137: the tests of `-m`. -/
def checkMultiple (dig : Nat → Bool) (ci : Nat → Nat → Bool) (lower upper : Str → Str) (data : Bytes) : Res Bool := do
  let i ← info lower upper data
  let sets ← setsLoop dig ci [] (i.rars.map (·.1))
  return decide (i.archived.length > sets.length)

/-- srr_sort.py:121-179 with the option `-m`, whose test comes before the others. -/
def sortMatchMore (dig : Nat → Bool) (ci : Nat → Nat → Bool) (lower upper : Str → Str) (o : SortOpts) (multiple : Bool) (p : Path) (data : Bytes) :
    Res Bool := do
  let a ← ifSet multiple (checkMultiple dig ci lower upper data)
  let b ← sortMatch lower upper o p data
  return a || b

end Rescene
