import Verif.Model.Regex
/-
SFV files: /repo/rescene/utility.py:152-282.
-/
namespace Rescene

/-- `bytes.strip` white space: space, tab, newline, return, vertical tab, form feed. -/
def byteSpace (b : UInt8) : Bool := b.toNat == 0x20 || (9 ≤ b.toNat && b.toNat ≤ 13)

/-- `str.strip` white space among the characters of Latin-1. -/
def l1Space (c : Nat) : Bool :=
  c == 0x20 || (9 ≤ c && c ≤ 13) || (0x1C ≤ c && c ≤ 0x1F) || c == 0x85 || c == 0xA0

/-- `s.lstrip()` for a class of characters. -/
def lstrip {α : Type} (p : α → Bool) (s : List α) : List α := s.dropWhile p
/-- `s.rstrip()`. -/
def rstrip {α : Type} (p : α → Bool) (s : List α) : List α := (s.reverse.dropWhile p).reverse
/-- `s.strip()`. -/
def strip {α : Type} (p : α → Bool) (s : List α) : List α := rstrip p (lstrip p s)

/-- `b.decode("latin-1")`: never fails. -/
def latin1Dec (b : Bytes) : Str := b.map UInt8.toNat

/-- utility.py:152-166 `SfvEntry`. -/
structure SfvEntry where
  fileName : Str
  crc : Str
  deriving DecidableEq, Repr

/-- `[\dA-F]` with `re.IGNORECASE`, for the characters of Latin-1. -/
def hexDigit (c : Nat) : Bool :=
  (0x30 ≤ c && c ≤ 0x39) || (0x41 ≤ c && c ≤ 0x46) || (0x61 ≤ c && c ≤ 0x66)

/-- utility.py:154-164: the constructor.  The text never contains a newline here, so the
pattern `^[\dA-F]{1,8}$` matches exactly 1 to 8 digits. -/
def mkSfvEntry (fileName crc : Str) : Res SfvEntry :=
  if 1 ≤ crc.length ∧ crc.length ≤ 8 ∧ crc.all hexDigit = true then
    .ok ⟨strip (· == 0x22) fileName, List.replicate (8 - crc.length) 0x30 ++ crc⟩
  else .error .valueError

/-- `text.replace("\t", "    ")`. -/
def tabs (s : Str) : Str := s.flatMap fun c => if c = 9 then [0x20, 0x20, 0x20, 0x20] else [c]

/-- `index = text.rindex(" ")`, giving `text[:index]` and `text[index + 1:]`. -/
def rsplitSpace (s : Str) : Option (Str × Str) :=
  let tail := (s.reverse.takeWhile (· != 0x20)).reverse
  match s.reverse.dropWhile (· != 0x20) with
  | [] => none
  | _ :: front => some (front.reverse, tail)

/-- utility.py:233-241: the entry of a line, `ValueError` when it has none. -/
def sfvEntryOf (line : Bytes) : Res SfvEntry :=
  let text := tabs (latin1Dec line)
  match rsplitSpace text with
  | none => .error .valueError
  | some (front, tail) => mkSfvEntry (strip l1Space front) (lstrip l1Space tail)

/-- utility.py:203-246: what is returned: entries, comments, errors. -/
structure SfvData where
  entries : List SfvEntry := []
  comments : List Str := []
  errors : List Str := []
  deriving DecidableEq, Repr

/-- utility.py:223-244: the body of the loop over the lines. -/
def sfvLine (acc : SfvData) (line : Bytes) : SfvData :=
  if strip byteSpace line = [] then acc
  else if (lstrip byteSpace line).head? = some 0x3B then
    { acc with comments := acc.comments ++ [latin1Dec line] }
  else
    let line := rstrip byteSpace line
    match sfvEntryOf line with
    | .ok e => { acc with entries := acc.entries ++ [e] }
    | .error _ => { acc with errors := acc.errors ++ [latin1Dec line] }

/-- `data.split(b"\n")`. -/
def splitNl : Bytes → List Bytes
  | [] => [[]]
  | c :: s =>
    if c = 0x0A then [] :: splitNl s
    else
      match splitNl s with
      | [] => [[c]]
      | h :: t => (c :: h) :: t

/-- utility.py:203-246 `parse_sfv_data`. -/
def parseSfvData (data : Bytes) : SfvData :=
  (splitNl (data.map fun c => if c = 0x0D then 0x0A else c)).foldl sfvLine {}

/-- utility.py:168-187 `SfvEntry.__lt__`.  `lower` is `str.lower` and `dig` the class `\d`:
Python's Unicode tables are a parameter. -/
def sfvLt (lower : Str → Str) (dig : Nat → Bool) (self other : SfvEntry) : Bool :=
  let a := self.fileName
  let b := other.fileName
  let extSelf := lower (a.drop (a.length - 4))
  let extOther := lower (b.drop (b.length - 4))
  let sameBase := lower (a.take (a.length - 4)) == lower (b.take (b.length - 4))
  let vol := (Rx.seq (.cls (· == 0x2E)) (.seq (.cls rxRz) (.seq (.cls dig) (.seq (.cls dig) .eos)))).test
  if sameBase && extSelf != extOther then
    if extSelf = str ".rar" then
      if vol extOther then true else decide (a < b)
    else if extOther = str ".rar" then
      if vol extSelf then false else decide (a < b)
    else decide (a < b)
  else decide (a < b)

/-- utility.py:192-196 `SfvEntry.__eq__` between two entries. -/
def sfvEq (lower : Str → Str) (a b : SfvEntry) : Bool :=
  lower a.fileName == lower b.fileName && lower a.crc == lower b.crc

/-- utility.py:271: `previous is None or not entry.__eq__(previous)`. -/
def sfvKeep (lower : Str → Str) (e : SfvEntry) : Option SfvEntry → Bool
  | none => true
  | some p => !sfvEq lower e p

/-- utility.py:268-274: the loop of `filter_sfv_duplicates`. -/
def sfvDupLoop (lower : Str → Str) : Option SfvEntry → List SfvEntry → List SfvEntry
  | _, [] => []
  | previous, e :: l =>
    if sfvKeep lower e previous then
      e :: sfvDupLoop lower (some e) l
    else sfvDupLoop lower (some e) l

/-- utility.py:265-274 `filter_sfv_duplicates`.  `sort` is Python's `sorted`, which goes by
`sfvLt`; it is a parameter, because that order is not transitive. -/
def filterSfvDuplicates (lower : Str → Str) (sort : List SfvEntry → List SfvEntry) (l : List SfvEntry) : List SfvEntry :=
  sfvDupLoop lower none (sort l)

/-- utility.py:276-282 `same_sfv`, on the data of both files. -/
def sameSfv (lower : Str → Str) (sort : List SfvEntry → List SfvEntry) (one two : Bytes) : Bool :=
  let a := sort (parseSfvData one).entries
  let b := sort (parseSfvData two).entries
  a.length == b.length && (a.zip b).all fun p => sfvEq lower p.1 p.2

end Rescene
