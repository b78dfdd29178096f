import Verif.Model.Regex
/-
Names of RAR volumes: /repo/rescene/utility.py:284-366.  `dig` is the class `\d` of
Python's `re` (which has more digits than 0 to 9).
-/
namespace Rescene

/-- utility.py:292-301: the loop of `inc` on the reversed characters: nines become zeros
until another character, which is replaced by its successor.  When every character is a
nine, index -1 is the last character, now a zero: it becomes a one. -/
def incRev : Str → Option Str
  | [] => none
  | c :: s => if c = 0x39 then (incRev s).map (0x30 :: ·) else some ((c + 1) :: s)

/-- utility.py:292-301 `inc`.  An empty text is an `IndexError`. -/
def incName (s : Str) : Res Str :=
  match s with
  | [] => .error .indexError
  | _ =>
    match incRev s.reverse with
    | some r => .ok r.reverse
    | none => .ok (List.replicate (s.length - 1) 0x30 ++ [0x31])

/-- utility.py:324: `.*\.(rar|[r-z]\d{2}|\d{3})$`. -/
def isRarRx (dig : Nat → Bool) : Rx :=
  .seq (.many rxDot) (.seq (.cls (· == 0x2E))
    (.seq (.alt (.seq (.cls (rxCi 0x72)) (.seq (.cls (rxCi 0x61)) (.cls (rxCi 0x72))))
      (.alt (.seq (.cls rxRzCi) (.seq (.cls dig) (.cls dig)))
        (.seq (.cls dig) (.seq (.cls dig) (.cls dig)))))
    .eos))

/-- utility.py:312-324 `is_rar`. -/
def isRar (dig : Nat → Bool) (s : Str) : Bool := (isRarRx dig).test s

/-- utility.py:303: `.*\.part\d*.rar$`; the last dot is any character but newline. -/
def partRx (dig : Nat → Bool) : Rx :=
  .seq (.many rxDot) (.seq (.cls (· == 0x2E)) (rxLit (str "part")
    (.seq (.many dig) (.seq (.cls rxDot) (rxLit (str "rar") .eos)))))

/-- utility.py:305: `.*\.rar$`. -/
def dotRarRx : Rx := .seq (.many rxDot) (.seq (.cls (· == 0x2E)) (rxLit (str "rar") .eos))

/-- utility.py:284-310 `next_archive`. -/
def nextArchive (dig : Nat → Bool) (s : Str) (isOld : Bool) : Res Str :=
  if (partRx dig).test s = true ∧ isOld = false then do
    let r ← incName (s.take (s.length - 4))
    return r ++ s.drop (s.length - 4)
  else if dotRarRx.test s = true then .ok (s.take (s.length - 4) ++ str ".r00")
  else if isRar dig s = false then .error .attrError
  else incName s

/-- utility.py:330: the pattern of `first_rars`. -/
def firstRx (dig : Nat → Bool) : Rx :=
  let rar := rxLit (str ".rar") .eos
  .seq (.many rxDot)
    (.alt
      (.alt (rxLit (str ".part") (.seq (.many (· == 0x30)) (.seq (.cls (· == 0x31)) rar)))
        (.seq (.notBehind [dig]) rar))
      (.seq (.alt .bos (.cls fun c => !dig c))
        (.seq (.notBehind [rxCi 0x70, rxCi 0x61, rxCi 0x72, rxCi 0x74])
          (.seq (.cls dig) (.seq (.many dig) rar)))))

/-- `s.endswith(e)`. -/
def endsWith (s e : Str) : Bool := e.isSuffixOf s

/-- utility.py:332-335 `is_first`. -/
def isFirst (dig : Nat → Bool) (s : Str) : Bool :=
  (firstRx dig).test s || endsWith s (str ".000") || endsWith s (str ".001")

/-- utility.py:345-351: the loop over `filter(..., firsts)`.  In Python 3 `filter` is lazy: the
list shrinks while it is iterated over by index.  At most one turn per element. -/
def firstLoop : Nat → Nat → List Str → List Str
  | 0, _, l => l
  | fuel + 1, i, l =>
    match l[i]? with
    | none => l
    | some f =>
      firstLoop fuel (i + 1)
        (if endsWith f (str ".000") then l.erase (f.take (f.length - 1) ++ str "1") else l)

/-- utility.py:326-366 `first_rars`; `lower` is `str.lower`. -/
def firstRars (dig : Nat → Bool) (lower : Str → Str) (files : List Str) : List Str :=
  let firsts := files.filter (isFirst dig)
  let firsts := firstLoop firsts.length 0 firsts
  if firsts = [] then
    let firsts := files.filter fun s => endsWith (lower s) (str ".rar")
    let followers := firsts.filter fun s => files.contains (s.take (s.length - 3) ++ str "r00")
    if followers ≠ [] then followers
    else if files.length > 1 then []
    else firsts
  else firsts

end Rescene
