import Verif.Model.Subs
/-
What should come of the archives with subtitles.
-/
namespace Rescene.Spec
open Rescene

/-- The archive can be extracted. -/
def Box.opens : Box → Bool
  | .broken => false
  | .full _ _ => true

/-- The name of a file without its last four characters. -/
def cut4 (name : Str) : Str := name.take (name.length - 4)

/-- `log` has an SRR file of the archive with the first volume `fr`.  It stores exactly the SRR files of those archives in
it that can be extracted, which are beside their first volumes, and these are again of that kind. -/
def Covered (first : List Str → List Str) (log : List (Str × Str × List Str)) : Box → Str → Str → Prop
  | .broken, _, _ => False
  | .full files inner, fr, srr => ∃ dest,
      (srr, fr, ((first (files.map (·.1))).filter fun n => Box.opens (inner n)).map fun n => posixJoin2 dest (cut4 n) ++ str ".srr") ∈ log ∧
      ∀ n ∈ first (files.map (·.1)), Box.opens (inner n) = true →
        Covered first log (inner n) (posixJoin2 dest n) (posixJoin2 dest (cut4 n) ++ str ".srr")

/-- What the IDX files in an archive and in the archives in it add to `languages.diz`: for each, in the order of their names, a line
with the name and the lines that start with `id: `. -/
def langTexts (w : SubWorld) : Box → List Bytes
  | .broken => []
  | .full files inner => (idxFiles w.lower files).map (idxText w.utf8) ++
      (firstRars w.dig w.lower (files.map (·.1))).flatMap fun n => langTexts w (inner n)

/-- Texts written behind a file that may not be there yet. -/
def appended (old : Option Bytes) : List Bytes → Option Bytes
  | [] => old
  | l => some (old.getD [] ++ l.flatten)

end Rescene.Spec
