import Verif.Model.SrsBatch
import Verif.Spec.SrsExit
/-
C99, C100: where an SRS belongs, and what srs_batch.py leaves behind.
-/
namespace Rescene.Spec
open Rescene

/-- A folder that a file can be written to: it exists, and its path has no slash at the end. -/
def GoodFolder (exist : Path → Bool) (p : Path) : Prop := p ≠ [] ∧ p.getLast? ≠ some 0x2F ∧ exist p = true

/-- The sample is the file `n.e` in the folder `q`, which is in the folder `p`, which is in the folder `a`. -/
def SampleAt (sample a p q n e : Str) : Prop :=
  sample = a ++ str "/" ++ p ++ str "/" ++ q ++ str "/" ++ n ++ str "." ++ e ∧ 0x2F ∉ p ∧ 0x2F ∉ q ∧ 0x2F ∉ n ∧ 0x2F ∉ e ∧ 0x2E ∉ e ∧ p ≠ [] ∧ q ≠ []

/-- The call makes an SRS, or tells its caller in the agreed way that it does not. -/
def BatchAnswers (dig : Nat → Bool) (lower : Str → Str) (w : BatchWorld) (f : BatchFile) : Prop :=
  Makes dig lower (w.call f) ∨ ∃ msg, mainEnd true (srsMakeBody dig lower (w.call f)) = .raised .value msg

/-- A video has one of the extensions. -/
def Video (lower : Str → Str) (f : BatchFile) : Prop := ∃ b, ∃ e ∈ batchExts, lower f.name = b ++ e

/-- What is in the output folder for a video: its SRS and no text, or a text with the reason and the earlier SRS, if any. -/
def Left (dig : Nat → Bool) (lower : Str → Str) (w : BatchWorld) (before after : OutTree) (f : BatchFile) : Prop :=
  (∃ s, srsMake dig lower w.app (posixJoin2 (posixJoin2 w.indir f.sub) f.name) f.data (w.fp f) false none = .ok s ∧ Makes dig lower (w.call f) ∧
    after (f.sub, stem f.name ++ str ".srs") = some s ∧ after (f.sub, f.name ++ str ".txt") = none) ∨
  (¬ Makes dig lower (w.call f) ∧ ∃ msg pre, mainEnd true (srsMakeBody dig lower (w.call f)) = .raised .value msg ∧
    after (f.sub, stem f.name ++ str ".srs") = before (f.sub, stem f.name ++ str ".srs") ∧
    after (f.sub, f.name ++ str ".txt") = some (pre ++ w.enc (msg ++ str "\n")))

end Rescene.Spec
