import Verif.Model.Nntp
/-
What is said about files that are read through a handle (C97), apart from the code.
-/
namespace Rescene.Spec
open Rescene

/-- The file that was posted. -/
def whole (f : PostedFile) : Bytes := f.segs.flatten

/-- The parts are all of the size of the first one, except that the last one may be smaller; none is empty. -/
def EvenParts (f : PostedFile) : Prop :=
  f.segs ≠ [] ∧ ∀ i s, f.segs[i]? = some s → 0 < s.length ∧ s.length ≤ f.firstSize ∧ (i + 1 < f.segs.length → s.length = f.firstSize)

/-- Parts are always downloaded in full: the saving of traffic is switched off, or it is a file other than a RAR file in
one or two parts. -/
def AlwaysFull (f : PostedFile) : Prop := f.few = none ∨ (f.isRar = false ∧ f.segs.length ≤ 2)

/-- A use of the handle. -/
inductive FileUse where
  | seek (offset : Int) (origin : Nat)
  | read (size : Option Nat)

/-- A plain file with the same data: its position, whether a seek was the last use, and whether it was read near the
end. -/
structure PlainFile where
  pos : Nat
  sought : Bool
  ended : Bool

/-- The positions near the end of a RAR file where the code looks for the last block. -/
def nearEnd (size pos : Nat) : Bool := [20, 18, 7, 9, 11, 13, 14, 16, 26].contains (size - pos)

/-- How many bytes are asked for; without a number it is all up to the end. -/
def PlainFile.amount (d : Bytes) (p : PlainFile) : Option Nat → Nat
  | some n => n
  | none => d.length - p.pos

/-- What a plain file does.  To seek or read beyond the end is an error here. -/
def PlainFile.use (d : Bytes) (p : PlainFile) : FileUse → Res (Option Bytes × PlainFile)
  | .seek offset origin =>
    let dest : Int := if origin = 0 then offset else if origin = 1 then p.pos + offset else if origin = 2 then d.length + offset else 0
    if dest < 0 ∨ dest > d.length then .error .indexError
    else .ok (none, { p with pos := dest.toNat, sought := true })
  | .read size =>
    if p.pos = d.length then .ok (some [], p)
    else
      let n := p.amount d size
      if p.pos + n > d.length then .error .indexError
      else .ok (some ((d.drop p.pos).take n), { pos := p.pos + n, sought := false, ended := p.ended || nearEnd d.length p.pos })

/-- What a row of uses gives, up to the first error. -/
def PlainFile.uses (d : Bytes) (p : PlainFile) : List FileUse → List (Res (Option Bytes))
  | [] => []
  | u :: t => match p.use d u with
    | .ok (r, p') => .ok r :: PlainFile.uses d p' t
    | .error e => [.error e]

/-- A RAR block starts at this position: its type is one of those that RAR has. -/
def BlockAt (d : Bytes) (pos : Nat) : Prop := pos + 7 ≤ d.length ∧ ∃ t, d[pos + 2]? = some t ∧ 0x72 ≤ t.toNat ∧ t.toNat ≤ 0x7B

/-- How RAR files are read: after a seek, and near the end for the first time, a block starts at the position. -/
def PlainFile.UsesOk (d : Bytes) (p : PlainFile) : List FileUse → Prop
  | [] => True
  | u :: t =>
    (match u with
    | .read _ => p.pos < d.length → (p.sought = true ∨ (nearEnd d.length p.pos = true ∧ p.ended = false)) → BlockAt d p.pos
    | .seek _ _ => True) ∧
    match p.use d u with
    | .ok (_, p') => PlainFile.UsesOk d p' t
    | .error _ => True

/-- The uses of a handle. -/
def useHandle (f : PostedFile) (st : NState) : FileUse → Res (Option Bytes × NState)
  | .seek offset origin => do
    let st ← st.seek f offset origin
    return (none, st)
  | .read size => do
    let (d, st) ← st.read f size
    return (some d, st)

/-- A row of uses of a handle, up to the first error. -/
def useAll (f : PostedFile) (st : NState) : List FileUse → List (Res (Option Bytes))
  | [] => []
  | u :: t => match useHandle f st u with
    | .ok (r, st') => .ok r :: useAll f st' t
    | .error e => [.error e]

/-- The handle after a row of uses that all went well. -/
def handleAfter (f : PostedFile) (st : NState) : List FileUse → Res NState
  | [] => .ok st
  | u :: t => do
    let (_, st) ← useHandle f st u
    handleAfter f st t

/-- No part that ends between these positions is on hand incompletely. -/
def NoneIncomplete (f : PostedFile) (st : NState) (start stop : Nat) : Prop :=
  ∀ i, start ≤ f.firstSize * i → f.firstSize * i < stop → ∀ d, st.data i = some d → f.seg? i = some d

end Rescene.Spec
