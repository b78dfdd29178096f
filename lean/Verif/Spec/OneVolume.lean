import Verif.Spec.Reconstruct
/-
Rebuilding some of the volumes.
-/
namespace Rescene.Spec

/-- The volume is not asked for: `part` is neither the end of its name, nor, followed by `*`, the
beginning. -/
def NotAsked (part name : Str) : Prop :=
  part ≠ [] ∧ ¬ part <:+ name ∧ ∀ pre, part = pre ++ [0x2A] → ¬ pre <+: name

/-- The volume is asked for by the end of its name. -/
def AskedAlone (part name : Str) : Prop := part ≠ [] ∧ part <:+ name ∧ ∀ pre, part = pre ++ [0x2A] → ¬ pre <+: name

/-- The volume is asked for by the beginning of its name. -/
def AskedSubset (part name : Str) : Prop := ∃ pre, part = pre ++ [0x2A] ∧ pre <+: name

/-- How much of a file is in the parts at the end of a list, as far as they are of one file: `n` bytes of the file `last` come
before the list. -/
def packedAtEnd : Option Str → Nat → List FilePart → Nat
  | _, n, [] => n
  | last, n, p :: ps => packedAtEnd (some p.f.name) (if last = some p.f.name then n + p.f.packedSize else p.f.packedSize) ps

/-- The part comes from offset `place` of a file in the input folder that is not written to. -/
def ComesFrom (a : RecArgs) (fs : FS) (written : List Path) (place : Nat) (p : FilePart) : Prop :=
  p.flags &&& 0xE0 ≠ 0xE0 ∧ ∃ content, SourceIs a fs written p content ∧ p.data = (content.drop place).take p.f.packedSize

end Rescene.Spec
