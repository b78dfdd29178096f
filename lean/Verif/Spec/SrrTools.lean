import Verif.Spec.Srr
import Verif.Spec.Paths
import Verif.Model.Paths
/-
Names of stored files, and where the tools put things.
-/
namespace Rescene.Spec

/-- The name of a stored file can be used as a relative path: no element is empty, "." or
"..".  Both "/" and "\\" separate. -/
def PathName (n : Str) : Prop := ∀ e ∈ splitOn 0x2F (backToSlash n), PlainElem e

/-- The first stored file with this name has these bytes. -/
def FirstStored (c : List Entry) (n : Str) (d : Bytes) : Prop :=
  ∃ c1 e c2, c = c1 ++ e :: c2 ∧ e.isStored n ∧ e.data = d ∧ ∀ e' ∈ c1, ¬ e'.isStored n

/-- The name of an SRS file. -/
def IsSrs (n : Str) : Prop := ∃ s, n = s ++ str ".srs"

/-- Where a stored file of this name belongs in a folder. -/
def inFolder (out n : Str) : Str := posixJoin2 (normpath out) n

end Rescene.Spec
