import Verif.Spec.Mkv
/-
Trying several offsets for several tracks.
-/
namespace Rescene.Spec

/-- All ways to choose one offset for each track; the choice for the first track changes last. -/
def choices : List (Nat × List Int) → List (List (Nat × Int))
  | [] => [[]]
  | (n, offsets) :: others => offsets.flatMap fun o => (choices others).map ((n, o) :: ·)

/-- One attempt for each choice, in order, until one is good.  `choose` sets the offsets, `attempt`
says if it was good.  Each starts with what the one before left. -/
def tryChoices {ε σ ρ : Type} (choose : List (Nat × Int) → σ → Except ε σ) (attempt : σ → Except ε (σ × ρ × Bool)) :
    List (List (Nat × Int)) → σ → Option ρ → Except ε (σ × Option ρ × Bool)
  | [], s, last => .ok (s, last, false)
  | c :: cs, s, _ =>
    match choose c s with
    | .error e => .error e
    | .ok s =>
      match attempt s with
      | .error e => .error e
      | .ok (s, r, true) => .ok (s, some r, true)
      | .ok (s, r, false) => tryChoices choose attempt cs s (some r)

/-- A frame of a movie looks like the beginning of a sample: as far as it goes, and the signature does,
the bytes are those of the signature.  `mh` and `sh` are the bytes that are stripped from each frame
in the movie and in the sample. -/
def LooksLike (sig mh sh frame : Bytes) : Prop := ((mh ++ frame).drop sh.length).take sig.length <+: sig

end Rescene.Spec
