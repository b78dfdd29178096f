import Verif.Model.Crc
/-
Repairing a file with the help of its CRC-32: /repo/scripts/bitflip.py.
-/
namespace Rescene

/-- bitflip.py:131-132, 213-262: what is tried for a byte. -/
inductive FlipMode where
  /-- one bit is changed, the highest first -/
  | bit
  /-- `--byte`: all values -/
  | byte
  /-- `--bitswitch`: two adjacent bits are changed -/
  | switch
  deriving DecidableEq, Repr

/-- bitflip.py:213-262: the values that are tried for a byte, in order. -/
def FlipMode.values (m : FlipMode) (b : UInt8) : List UInt8 :=
  match m with
  | .bit => (List.range 8).map fun i => b ^^^ (0x80 >>> UInt8.ofNat i)
  | .byte => (List.range 256).map UInt8.ofNat
  | .switch => (List.range 7).map fun i => b ^^^ (0x3 <<< UInt8.ofNat i)

/-- The table of checksums and lengths, by start and end: the last record for a key is in front. -/
abbrev FlipTable := List ((Nat × Nat) × (BitVec 32 × Nat))

/-- `data[a:b]`. -/
def part (data : Bytes) (a b : Nat) : Bytes := (data.take b).drop a

/-- `range(a, b, step)` for a positive step. -/
def stepRange (a b step : Nat) : List Nat := (List.range ((b - a + step - 1) / step)).map fun i => a + i * step

/-- bitflip.py:83-94: a turn of the loop. -/
def precalculateOne (data : Bytes) (rs re skip : Nat) (t : FlipTable) (start : Nat) : FlipTable :=
  let stop := if start + skip > re then re else start + skip
  ((stop, re), (crc32 (part data stop re) 0, re - stop)) :: ((rs, start), (crc32 (part data rs start) 0, start - rs)) :: t

/-- bitflip.py:80-99 `precalculate`, for a range that is not reversed. -/
def precalculate (data : Bytes) (rs re skip : Nat) : FlipTable :=
  ((rs, re), (crc32 (part data rs re) 0, re - rs)) :: (stepRange rs (re + 1) skip).foldl (precalculateOne data rs re skip) []

/-- A look in the table: KeyError. -/
def FlipTable.get (t : FlipTable) (k : Nat × Nat) : Res (BitVec 32 × Nat) :=
  match t.lookup k with
  | some v => .ok v
  | none => .error .keyError

/-- `assert`. -/
def check (b : Bool) : Res Unit := if b then .ok () else .error .assertError

/-- bitflip.py:150-163 `validate_table`: the loop. -/
def validateTable (actual : BitVec 32) (rs re : Nat) (t : FlipTable) : List Nat → Res Unit
  | [] => .ok ()
  | s :: rest => do
    let s := if s > re then re else s
    let (c1, _) ← t.get (rs, s)
    let (c2, l2) ← t.get (s, re)
    let c ← crc32Combine c1 c2 l2
    check (actual == c)
    if s = re then return () else validateTable actual rs re t rest

/-- What the loop over the bytes keeps. -/
structure FlipState where
  count : Nat := 0
  start : Nat := 0
  stop : Nat := 0
  before : BitVec 32
  after : BitVec 32
  beforeLen : Nat := 0
  afterLen : Nat

/-- bitflip.py:186-205: a new part starts. -/
def newPart (data : Bytes) (rs re skip : Nat) (t : FlipTable) (s : FlipState) : Res FlipState := do
  let start := rs + s.count
  let (c1, l1) ← t.get (rs, start)
  let before ← crc32Combine (crc32 (part data 0 rs) 0) c1 l1
  check (before == crc32 (part data 0 (rs + s.count)) 0)
  let stop := if start + skip > re then re else start + skip
  let (c2, l2) ← t.get (stop, re)
  let ending := data.drop re
  let after ← crc32Combine c2 (crc32 ending 0) ending.length
  check (after == crc32 (data.drop stop) 0)
  return { s with start := start, stop := stop, before := before, after := after, beforeLen := (part data 0 rs).length + l1,
                  afterLen := l2 + ending.length }

/-- bitflip.py:213-262: the first value that gives the checksum, when `before` is that of the bytes in front, `after` that of the
`len` bytes behind. -/
def tryValues (expected before after : BitVec 32) (len : Nat) : List UInt8 → Res (Option UInt8)
  | [] => .ok none
  | v :: rest => do
    let c ← crc32Combine (crc32 [v] before) after len
    if c = expected then return some v else tryValues expected before after len rest

/-- bitflip.py:182-262: a byte. -/
def flipByte (data : Bytes) (expected : BitVec 32) (mode : FlipMode) (rs re skip : Nat) (t : FlipTable) (s : FlipState) (cur : Nat) :
    Res (FlipState × Option UInt8) := do
  let s ← (if s.count % skip = 0 then newPart data rs re skip t s else .ok s : Res FlipState)
  let ball ← crc32Combine s.before (crc32 (part data s.start cur) 0) (cur - s.start : Nat)
  check (s.beforeLen + (cur - s.start) == (part data 0 cur).length)
  check (ball == crc32 (part data 0 cur) 0)
  let apart := crc32 (part data (cur + 1) s.stop) 0
  check (s.stop - cur - 1 == (part data (cur + 1) s.stop).length)
  let aall ← crc32Combine apart s.after s.afterLen
  check (aall == crc32 (data.drop (cur + 1)) 0)
  let b ← (match data[cur]? with
    | some b => .ok b
    | none => .error .typeError : Res UInt8)
  let r ← tryValues expected ball aall (s.stop - cur - 1 + s.afterLen) (mode.values b)
  return ({ s with count := s.count + 1 }, r)

/-- bitflip.py:181-275: the loop over the bytes.  The result is the place of the changed byte and the contents of the file that is
written. -/
def flipLoop (data : Bytes) (expected : BitVec 32) (mode : FlipMode) (rs re skip : Nat) (t : FlipTable) : FlipState → List Nat →
    Res (Option (Nat × Bytes))
  | _, [] => .ok none
  | s, cur :: rest => do
    let (s, r) ← flipByte data expected mode rs re skip t s cur
    match r with
    | some v => return some (cur, part data 0 cur ++ [v] ++ data.drop (cur + 1))
    | none => flipLoop data expected mode rs re skip t s rest

/-- bitflip.py:101-278 `main`: what is written, none when no change is found.  `comb` is `crc32_combine`.  Not modelled: ranges with
negative or reversed bounds (a message, and then they are used), the printed messages, running without assertions. -/
def bitflip (data : Bytes) (expected : BitVec 32) (mode : FlipMode) (range : Option (Nat × Nat)) (skip : Nat) : Res (Option (Nat × Bytes)) := do
  let (rs, re) := range.getD (0, data.length)
  let re := if re > data.length then data.length else re
  if skip = 0 then throw .valueError
  let t := precalculate data rs re skip
  validateTable (crc32 (part data rs re) 0) rs re t (stepRange rs (re + skip) skip)
  let ending := data.drop re
  flipLoop data expected mode rs re skip t ⟨0, 0, 0, crc32 (part data 0 rs) 0, crc32 ending 0, 0, ending.length⟩
    ((List.range (re - rs)).map (rs + ·))

end Rescene
