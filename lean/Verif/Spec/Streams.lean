import Verif.Model.Bytes
/-
What a file opened for reading does: the reference for streams that pretend to be one.
-/
namespace Rescene.Spec

/-- Where a seek starts from. -/
inductive Whence where
  | set | cur | fromEnd
  deriving DecidableEq, Repr

/-- Calls on a file. -/
inductive FileOp where
  | seek (offset : Int) (whence : Whence)
  | read (size : Int)
  | tell
  deriving DecidableEq, Repr

/-- Results of those calls. -/
inductive FileOut where
  | position (n : Nat)
  | bytes (b : Bytes)
  | refused
  deriving DecidableEq, Repr

/-- The place a seek goes to. -/
def target (len pos : Nat) (offset : Int) : Whence → Int
  | .set => offset
  | .cur => pos + offset
  | .fromEnd => len + offset

/-- One call on a file with these contents at this position.  `limit` tells which targets of
a seek are refused besides the negative ones. -/
def fileStep (limit : Nat → Bool) (data : Bytes) (pos : Nat) : FileOp → FileOut × Nat
  | .seek offset w =>
    let t := target data.length pos offset w
    if t < 0 ∨ limit t.toNat then (.refused, pos) else (.position t.toNat, t.toNat)
  | .read size =>
    let rest := data.drop pos
    let got := if size < 0 then rest else rest.take size.toNat
    (.bytes got, pos + got.length)
  | .tell => (.position pos, pos)

/-- The results of a sequence of calls. -/
def fileRun (limit : Nat → Bool) (data : Bytes) : Nat → List FileOp → List FileOut
  | _, [] => []
  | pos, op :: ops =>
    let (o, p) := fileStep limit data pos op
    o :: fileRun limit data p ops

/-- A regular file: every place at or beyond the beginning can be reached. -/
def regular : Nat → Bool := fun _ => false

end Rescene.Spec
