import Verif.Spec.RarRepo
/-
C117: the times in a file header and the date of an archive.
-/
namespace Rescene.Spec
open Rescene

/-- One extended time as it is stored: whether the second is odd, and up to three bytes of a fraction of it. -/
structure Fine where
  odd : Bool
  fraction : Bytes

/-- The extended times of a file header; the first one refines the time of the header, the others have a DOS time of their own. -/
structure StoredTimes where
  mtime : Option Fine
  ctime : Option (Nat × Fine)
  atime : Option (Nat × Fine)
  arctime : Option (Nat × Fine)

/-- Four bits for each time: it is there, the second is odd, the number of bytes. -/
def Fine.bits (x : Fine) : Nat := 8 + (if x.odd then 4 else 0) + x.fraction.length

/-- The bits of a time that may be missing. -/
def bitsOr0 : Option Fine → Nat
  | some x => x.bits
  | none => 0

/-- The fraction of a time that may be missing. -/
def fractionOr0 : Option Fine → Bytes
  | some x => x.fraction
  | none => []

/-- A stored time with its DOS time. -/
def timeBytes : Option (Nat × Fine) → Bytes
  | some (stamp, x) => le 4 stamp ++ x.fraction
  | none => []

/-- The extended times as bytes. -/
def StoredTimes.bytes (t : StoredTimes) : Bytes :=
  le 2 (bitsOr0 t.mtime * 4096 + bitsOr0 (t.ctime.map (·.2)) * 256 + bitsOr0 (t.atime.map (·.2)) * 16 + bitsOr0 (t.arctime.map (·.2))) ++
    (fractionOr0 t.mtime ++ (timeBytes t.ctime ++ (timeBytes t.atime ++ timeBytes t.arctime)))

/-- At most three bytes, and DOS times of 32 bits. -/
def StoredTimes.Ok (t : StoredTimes) : Prop :=
  (∀ x, t.mtime = some x → x.fraction.length ≤ 3) ∧ (∀ s x, t.ctime = some (s, x) → s < 2 ^ 32 ∧ x.fraction.length ≤ 3) ∧
  (∀ s x, t.atime = some (s, x) → s < 2 ^ 32 ∧ x.fraction.length ≤ 3) ∧ (∀ s x, t.arctime = some (s, x) → s < 2 ^ 32 ∧ x.fraction.length ≤ 3)

/-- The fraction in units of 100 ns: the bytes are the most significant ones of a number of three bytes. -/
def Fine.units (x : Fine) : Nat := ofLe x.fraction * 256 ^ (3 - x.fraction.length)

/-- What a stored time with a DOS time means. -/
def timeOf (stamp : Nat × Fine) : XTime := ⟨parseDosTime stamp.1, stamp.2.units, stamp.2.odd⟩

/-- The year, month and day of a 32-bit DOS time. -/
def StampDay (stamp : Nat) (y m d : Nat) : Prop := y = 1980 + stamp / 2 ^ 25 % 128 ∧ m = stamp / 2 ^ 21 % 16 ∧ d = stamp / 2 ^ 16 % 32

/-- A day is one of the days of a file: of the time in the header or of an extended time. -/
def HasDay (f : FileFields) (y m d : Nat) : Prop :=
  StampDay f.datetime y m d ∨ ∃ e x, f.times = some e ∧ (e.mtime = some x ∨ e.ctime = some x ∨ e.atime = some x ∨ e.arctime = some x) ∧
    x.dos.1 = y ∧ x.dos.2.1 = m ∧ x.dos.2.2.1 = d

/-- The first day is not after the second one. -/
def NotAfter (y m d y2 m2 d2 : Nat) : Prop := y < y2 ∨ y = y2 ∧ (m < m2 ∨ m = m2 ∧ d ≤ d2)

/-- The fields were read out of a file header. -/
def ReadFile (f : FileFields) : Prop := ∃ buf flags p, parseFile buf flags = .ok (f, p)

/-- A file of the archive. -/
def FileIn (f : FileFields) (blocks : List Block) : Prop := ∃ b ∈ blocks, b.kind = .packed f

/-- The day of the newest file: the latest of all days of the files. -/
def NewestDay (blocks : List Block) (y m d : Nat) : Prop :=
  (∃ f, FileIn f blocks ∧ HasDay f y m d) ∧ ∀ f y2 m2 d2, FileIn f blocks → HasDay f y2 m2 d2 → NotAfter y2 m2 d2 y m d

/-- The executable was released on this day. -/
def ReleasedOn (e : RarExe) (y m d : Nat) : Prop := DateText e.date y m d

end Rescene.Spec
