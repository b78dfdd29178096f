import Verif.Model.SrsExit
/-
C85: what becomes of the samples of a release.
-/
namespace Rescene.Spec

/-- The call makes an SRS: there is a place for it, the fingerprint of music is found, and nothing is wrong with the sample. -/
def Makes (dig : Nat → Bool) (lower : Str → Str) (c : SrsCall) : Prop :=
  c.noFolder = none ∧
    (∀ k, MediaFile.kind dig lower ⟨c.path, c.sample, none⟩ = .ok k → k = .flac ∨ k = .mp3 → c.fpFails = none) ∧ ∃ srs, srsMake dig lower c.app c.path c.sample c.fp c.big c.check = .ok srs

/-- An SRS can be made for the sample: against one of the main files or without. -/
def CanMake (dig : Nat → Bool) (lower : Str → Str) (s : AutoSample) : Prop :=
  (s.verify = true ∧ ∃ c ∈ s.checked, Makes dig lower c) ∨ Makes dig lower s.plain

/-- What a user expects of a sample: its SRS if one can be made; otherwise the reason in a text, except for an empty file. -/
def Expected (dig : Nat → Bool) (lower : Str → Str) (s : AutoSample) (f : SampleFate) : Prop :=
  (f = .srs ↔ CanMake dig lower s) ∧ (f = .text ↔ ¬ CanMake dig lower s ∧ s.plain.sample ≠ []) ∧
    (f = .nothing ↔ ¬ CanMake dig lower s ∧ s.plain.sample = [])

/-- Every sample of the list gets what is expected, in order. -/
inductive AllExpected (dig : Nat → Bool) (lower : Str → Str) : List AutoSample → List SampleFate → Prop where
  | nil : AllExpected dig lower [] []
  | cons {s f l fs} : Expected dig lower s f → AllExpected dig lower l fs → AllExpected dig lower (s :: l) (f :: fs)

/-- A call that makes an SRS, or tells its caller in the agreed way (ValueError) that it does not. -/
def Answers (dig : Nat → Bool) (lower : Str → Str) (c : SrsCall) : Prop :=
  mainEnd true (srsMakeBody dig lower c) = .returned ∨
    ∃ msg, mainEnd true (srsMakeBody dig lower c) = .raised .value msg ∧ ¬ msgNotFound <:+ msg

end Rescene.Spec
