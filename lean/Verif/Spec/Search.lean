import Verif.Model.Bytes
/-
Occurrences of a byte string in another one.
-/
namespace Rescene.Spec

/-- `sig` is found in `data` at offset `k`. -/
def OccursAt (sig data : Bytes) (k : Nat) : Prop := ∃ pre post, data = pre ++ sig ++ post ∧ pre.length = k

/-- `k` is the first offset where `sig` is found. -/
def FirstAt (sig data : Bytes) (k : Nat) : Prop :=
  OccursAt sig data k ∧ ∀ j, OccursAt sig data j → k ≤ j

end Rescene.Spec
