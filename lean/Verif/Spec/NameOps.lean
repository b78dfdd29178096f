import Verif.Model.Str
/-
The compressed unicode names of RAR 3 (encname.cpp of the unrar source): a byte with the
usual high byte, then groups of up to four operations behind a byte with their kinds, two
bits each, the first in the highest bits.
-/
namespace Rescene.Spec

/-- What is done for the next characters. -/
inductive NameOp where
  /-- a character below 256 -/
  | low (c : UInt8)
  /-- a character with the usual high byte -/
  | page (c : UInt8)
  /-- any character -/
  | full (lo hi : UInt8)
  /-- `n + 2` characters as in the standard name -/
  | copy (n : Fin 128)
  /-- `n + 2` characters of the standard name, shifted, with the usual high byte -/
  | shift (n : Fin 128) (by_ : UInt8)

/-- The kind of an operation. -/
def NameOp.kind : NameOp → Nat
  | .low _ => 0
  | .page _ => 1
  | .full _ _ => 2
  | .copy _ => 3
  | .shift _ _ => 3

/-- The bytes of an operation. -/
def NameOp.bytes : NameOp → Bytes
  | .low c => [c]
  | .page c => [c]
  | .full lo hi => [lo, hi]
  | .copy n => [UInt8.ofNat n]
  | .shift n c => [UInt8.ofNat (128 + n), c]

/-- The characters at positions `pos` to `pos + n` of the standard name, if it is that long. -/
def stdChars (std : Bytes) (pos n : Nat) : Option Bytes :=
  if pos + n ≤ std.length then some ((std.drop pos).take n) else none

/-- The UTF-16 units an operation stands for, at position `pos` of the name. -/
def NameOp.units (std : Bytes) (page : UInt8) (pos : Nat) : NameOp → Option (List Nat)
  | .low c => some [c.toNat]
  | .page c => some [c.toNat + 256 * page.toNat]
  | .full lo hi => some [lo.toNat + 256 * hi.toNat]
  | .copy n => (stdChars std pos (n + 2)).map fun l => l.map (·.toNat)
  | .shift n c => (stdChars std pos (n + 2)).map fun l => l.map fun s => (s.toNat + c.toNat) % 256 + 256 * page.toNat

/-- The UTF-16 units of a sequence of operations. -/
def nameUnits (std : Bytes) (page : UInt8) : Nat → List NameOp → Option (List Nat)
  | _, [] => some []
  | pos, op :: ops => do
    let u ← op.units std page pos
    let r ← nameUnits std page (pos + u.length) ops
    return u ++ r

/-- `data` encodes the operations; `left` kinds of the last byte with kinds are unused. -/
inductive Encodes : (kinds left : Nat) → List NameOp → Bytes → Prop
  | done (kinds left : Nat) : Encodes kinds left [] []
  | kinds (old : Nat) (kinds : UInt8) (ops : List NameOp) (data : Bytes) (hne : ops ≠ [])
      (h : Encodes kinds.toNat 4 ops data) : Encodes old 0 ops (kinds :: data)
  | op (kinds left : Nat) (op : NameOp) (ops : List NameOp) (data : Bytes) (hk : kinds / 4 ^ left % 4 = op.kind)
      (h : Encodes kinds left ops data) : Encodes kinds (left + 1) (op :: ops) (op.bytes ++ data)

end Rescene.Spec
