import Verif.Model.Bytes
/-
Python `str` as a list of code points, and the codecs the code uses.
-/
namespace Rescene

/-- A Python `str`: its code points. -/
abbrev Str := List Nat

/-- Convenience for examples: the code points of a Lean string. -/
def str (s : String) : Str := s.toList.map Char.toNat

/-- One code point in UTF-8; `none` for surrogates and out of range
(`UnicodeEncodeError`). -/
def utf8EncCp (c : Nat) : Option Bytes :=
  if c < 0x80 then some [UInt8.ofNat c]
  else if c < 0x800 then some [UInt8.ofNat (0xC0 + c / 64), UInt8.ofNat (0x80 + c % 64)]
  else if 0xD800 ≤ c ∧ c < 0xE000 then none
  else if c < 0x10000 then
    some [UInt8.ofNat (0xE0 + c / 4096), UInt8.ofNat (0x80 + c / 64 % 64), UInt8.ofNat (0x80 + c % 64)]
  else if c < 0x110000 then
    some [UInt8.ofNat (0xF0 + c / 262144), UInt8.ofNat (0x80 + c / 4096 % 64),
          UInt8.ofNat (0x80 + c / 64 % 64), UInt8.ofNat (0x80 + c % 64)]
  else none

/-- `s.encode("utf-8")`. -/
def utf8Enc : Str → Res Bytes
  | [] => .ok []
  | c :: s =>
    match utf8EncCp c with
    | none => .error .unicodeError
    | some b => do
      let t ← utf8Enc s
      return b ++ t

/-- A UTF-8 continuation byte. -/
def isCont (b : UInt8) : Bool := 0x80 ≤ b.toNat && b.toNat < 0xC0

/-- Decode the first code point of a byte string: the code point and the rest. -/
def utf8DecOne : Bytes → Option (Nat × Bytes)
  | [] => none
  | b0 :: t =>
    if b0.toNat < 0x80 then some (b0.toNat, t)
    else if b0.toNat < 0xC2 then none
    else if b0.toNat < 0xE0 then
      match t with
      | b1 :: t1 =>
        if isCont b1 then some ((b0.toNat - 0xC0) * 64 + (b1.toNat - 0x80), t1) else none
      | _ => none
    else if b0.toNat < 0xF0 then
      match t with
      | b1 :: b2 :: t2 =>
        let c := (b0.toNat - 0xE0) * 4096 + (b1.toNat - 0x80) * 64 + (b2.toNat - 0x80)
        if isCont b1 && isCont b2 && decide (0x800 ≤ c) && !(decide (0xD800 ≤ c) && decide (c < 0xE000))
        then some (c, t2) else none
      | _ => none
    else if b0.toNat < 0xF5 then
      match t with
      | b1 :: b2 :: b3 :: t3 =>
        let c := (b0.toNat - 0xF0) * 262144 + (b1.toNat - 0x80) * 4096 + (b2.toNat - 0x80) * 64
          + (b3.toNat - 0x80)
        if isCont b1 && isCont b2 && isCont b3 && decide (0x10000 ≤ c) && decide (c < 0x110000)
        then some (c, t3) else none
      | _ => none
    else none

/-- `b.decode("utf-8")` (strict), with a step budget. -/
def utf8DecFuel : Nat → Bytes → Res Str
  | _, [] => .ok []
  | 0, _ :: _ => .error .fuel
  | fuel + 1, b =>
    match utf8DecOne b with
    | none => .error .unicodeError
    | some (c, t) => do
      let s ← utf8DecFuel fuel t
      return c :: s

/-- `b.decode("utf-8")` (strict).  Every code point takes at least one byte, so the
length is enough budget (`utf8Dec_no_fuel`). -/
def utf8Dec (b : Bytes) : Res Str := utf8DecFuel b.length b

/-- `windows-1252` code points of the bytes 0x80..0x9F; the five undefined ones
become U+FFFD under the "replace" error handler. -/
def cp1252High : List Nat :=
  [0x20AC, 0xFFFD, 0x201A, 0x0192, 0x201E, 0x2026, 0x2020, 0x2021,
   0x02C6, 0x2030, 0x0160, 0x2039, 0x0152, 0xFFFD, 0x017D, 0xFFFD,
   0xFFFD, 0x2018, 0x2019, 0x201C, 0x201D, 0x2022, 0x2013, 0x2014,
   0x02DC, 0x2122, 0x0161, 0x203A, 0x0153, 0xFFFD, 0x017E, 0x0178]

/-- `b.decode("windows-1252", "replace")`. -/
def cp1252Dec (b : Bytes) : Str :=
  b.map fun x =>
    if 0x80 ≤ x.toNat ∧ x.toNat < 0xA0 then cp1252High.getD (x.toNat - 0x80) 0xFFFD else x.toNat

/-- `buf.decode("utf-16le", "replace")` on a list of 16 bit units (the buffer the
code decodes always has an even length). -/
def utf16Dec : List Nat → Str
  | [] => []
  | [u] => if 0xD800 ≤ u ∧ u < 0xE000 then [0xFFFD] else [u]
  | u :: v :: t =>
    if 0xD800 ≤ u ∧ u < 0xDC00 then
      if 0xDC00 ≤ v ∧ v < 0xE000 then
        (0x10000 + (u - 0xD800) * 1024 + (v - 0xDC00)) :: utf16Dec t
      else 0xFFFD :: utf16Dec (v :: t)
    else if 0xDC00 ≤ u ∧ u < 0xE000 then 0xFFFD :: utf16Dec (v :: t)
    else u :: utf16Dec (v :: t)

/-- `s.split(sep)` for a one character separator. -/
def splitOn (sep : Nat) : Str → List Str
  | [] => [[]]
  | c :: s =>
    if c = sep then [] :: splitOn sep s
    else
      match splitOn sep s with
      | [] => [[c]]
      | h :: t => (c :: h) :: t

/-- `sep.join(parts)`. -/
def joinWith (sep : Nat) : List Str → Str
  | [] => []
  | [p] => p
  | p :: ps => p ++ sep :: joinWith sep ps

/-- ASCII lower-casing of one code point.  `str.lower()` on other characters is not
modelled. -/
def lowerCp (c : Nat) : Nat := if 0x41 ≤ c ∧ c ≤ 0x5A then c + 32 else c

/-- `s.lower()` restricted to ASCII letters. -/
def lowerStr (s : Str) : Str := s.map lowerCp

/-- `os.path.basename` on POSIX: what follows the last `/`. -/
def basename (s : Str) : Str := (splitOn 0x2F s).getLast?.getD []

/-- `os.path.dirname(elem)` is nonempty on POSIX iff the element contains a `/`. -/
def hasSlash (s : Str) : Bool := s.contains 0x2F

end Rescene
