import Verif.Spec.Search
import Verif.Model.Fpcalc
/-
C104: words for the statements about fingerprints.
-/
namespace Rescene.Spec
open Rescene

/-- New temporary files have names that were not in use. -/
def FreshTemp (w : FpWorld) : Prop := ∀ fs suffix p, w.temp fs suffix = .ok p → fs p = none

/-- Names of characters below 128. -/
def IsAscii (p : Str) : Prop := ∀ c ∈ p, c < 128

/-- Temporary files whose suffix is ASCII have ASCII names: the folder for them has one. -/
def AsciiTemp (w : FpWorld) : Prop := ∀ fs suffix p, IsAscii suffix → w.temp fs suffix = .ok p → IsAscii p

/-- The rest of the last line that starts with `key`. -/
def lastValue (key : Bytes) (lines : List Bytes) : Option Bytes :=
  ((lines.filter fun l => key.isPrefixOf l).getLast?).map fun l => l.drop key.length

/-- ASCII text as bytes. -/
def text (s : String) : Bytes := (str s).map fun c => UInt8.ofNat c

/-- The lines tell of a fingerprint: the last duration and the last fingerprint are there and not empty, and no
line tells of an error. -/
def Tells (lines : List Bytes) (duration fp : Bytes) : Prop :=
  lastValue (text "DURATION=") lines = some duration ∧ duration ≠ [] ∧ lastValue (text "FINGERPRINT=") lines = some fp ∧ fp ≠ [] ∧
    ∀ l ∈ lines, ¬ text "ERROR: couldn't open the file" <+: l ∧ ¬ text "ERROR: couldn't find stream" <+: l

/-- One of the strings that encoders leave is at this place. -/
def Marked (file : Bytes) (i : Nat) : Prop := OccursAt (text "Xing") file i ∨ OccursAt (text "LAME") file i

/-- The program fpcalc looks only at the contents of a file. -/
def ByContents (w : FpWorld) (out : Bytes → Bytes) : Prop := ∀ fs p d, fs p = some d → w.fpcalc fs p = out d

/-- There are finitely many files. -/
def Finitely (fs : FS) : Prop := ∃ names : List Path, ∀ q, fs q ≠ none → q ∈ names

/-- Temporary files can always be made, with names that were not in use. -/
def TempWorks (w : FpWorld) : Prop := ∀ fs suffix, Finitely fs → ∃ p, w.temp fs suffix = .ok p ∧ fs p = none

/-- One attempt after the other: `tell` on the data, and when it has nothing to tell, the same on what the next way
of stripping makes of that data. -/
def tries (tell : Bytes → Option (Bytes × Bytes)) : List (Bytes → Res Bytes) → Bytes → Res (Bytes × Bytes)
  | ways, d =>
    match tell d, ways with
    | some r, _ => .ok r
    | none, [] => .error .valueError
    | none, way :: ways =>
      match way d with
      | .error e => .error e
      | .ok c => tries tell ways c

/-- The last FF at or before a place: `k` is its index in `stack`, where the last byte does not count. -/
def LastFF (stack : Bytes) (k : Nat) : Prop :=
  k + 1 < stack.length ∧ stack[k]? = some 0xFF ∧ ∀ j, k < j → j + 1 < stack.length → stack[j]? ≠ some 0xFF

end Rescene.Spec
