import Verif.Props.WmvCut
import Verif.Props.WmvExample
/-
C68: examples, and samples that are not found.
-/
namespace Rescene.Props
open Rescene Spec

/-- A file with packets of `psize` bytes. -/
def wmvOf (psize : Nat) (ps : List WmvPacket) : WmvFile :=
  ⟨[.header [1, 2, 3, 4, 5, 6] [wmvFileObject, wmvStreamObject 1, wmvStreamObject 2]], List.replicate 16 5, [1, 1], psize, ps, []⟩

/-- A packet with data of both streams. -/
def wmvBoth (a b : Bytes) : WmvPacket := wmvPack true [wmvPlain true 1 [] a, wmvPlain true 2 [] b] []

/-- Three packets. -/
def wmvMovie : WmvFile := wmvOf 39 [wmvBoth [1, 2, 3, 10] [50, 51, 52, 53], wmvBoth [10, 11, 12, 13] [54, 55, 56, 57],
  wmvBoth [14, 15, 16, 17] [58, 59, 60, 61]]

/-- The first stream starts with a payload, and one byte before it is a false start; the second starts in
the middle of a payload. -/
def wmvCut : WmvFile := wmvOf 40 [wmvBoth [10, 11, 12, 13, 14] [55, 56, 57, 58]]

/-- Unlucky sizes need two packets. -/
theorem lucky_of_one {w : WmvFile} (h : w.packets.length ≤ 1) : w.Lucky := by
  intro a b hab h2
  have := congrArg List.length hab
  simp only [List.length_append] at this
  omega

/-- What is left of a check of a start. -/
def startsInCheck (d : Bytes) (n : Nat) (a : List WmvPiece) (p : WmvPiece) (k : Nat) (b : List WmvPiece) : Bool :=
  decide (p.stream = n) && decide (k < p.data.length) && (d.isPrefixOf (p.data.drop k ++ streamData b n)) &&
  (List.range ((streamData a n).length + k)).all fun i =>
    !(((streamData a n ++ p.data).drop i).take (d.take 256).length).isPrefixOf (d.take 256)

theorem startsIn_of_check {d : Bytes} {n : Nat} {a : List WmvPiece} {p : WmvPiece} {k : Nat} {b : List WmvPiece}
    (h : startsInCheck d n a p k b = true) : StartsIn d n a p k b := by
  simp only [startsInCheck, Bool.and_eq_true, decide_eq_true_eq, List.all_eq_true, List.mem_range, Bool.not_eq_true'] at h
  obtain ⟨⟨⟨h1, h2⟩, h3⟩, h4⟩ := h
  refine ⟨h1, h2, List.isPrefixOf_iff_prefix.1 h3, fun i hi hp => ?_⟩
  have := h4 i hi
  rw [isPrefixOf_true hp] at this
  simp at this

set_option maxRecDepth 100000 in
/-- The hypotheses of `wmv_cut_rebuilt_partial` and `wmv_checked_rebuilt_partial` are met. -/
theorem wmvCut_from : wmvCut.Ok ∧ wmvCut.Lucky ∧ WmvCutFrom wmvCut wmvMovie := by
  refine ⟨by decide +kernel, lucky_of_one (by decide), by decide +kernel, by decide +kernel, by decide +kernel, by decide +kernel, ?_⟩
  intro n hn
  have hall : ∀ p ∈ wmvCut.pieces, p.stream = 1 ∨ p.stream = 2 := by decide +kernel
  obtain ⟨p, hp, rfl⟩ := streamData_stream hn
  rcases hall p hp with h | h <;> rw [h]
  · exact ⟨wmvMovie.pieces.take 2, wmvMovie.pieces[2], 0, wmvMovie.pieces.drop 3, by decide +kernel, startsIn_of_check (by decide +kernel)⟩
  · exact ⟨wmvMovie.pieces.take 3, wmvMovie.pieces[3], 1, wmvMovie.pieces.drop 4, by decide +kernel, startsIn_of_check (by decide +kernel)⟩

/-- An SRS is created for a sample, with a main file perhaps, and rebuilding has this outcome. -/
def wmvOutcome (sample : Bytes) (check : Option Bytes) (main : Bytes) : Option (Except Err Bytes) :=
  match srsWmvCreate [0x61] [0x73] sample false check with
  | .ok srs =>
    if srs.length < 2 ^ 63 then
      match srsWmvReconstruct srs main false with
      | .ok r => some (.ok r.file)
      | .error e => some (.error e)
    else none
  | .error _ => none

def wmvErrorIs (r : Option (Except Err Bytes)) (e : Err) : Bool :=
  match r with
  | some (.error e') => decide (e' = e)
  | _ => false

def wmvFileIs (r : Option (Except Err Bytes)) (b : Bytes) : Bool :=
  match r with
  | some (.ok b') => decide (b' = b)
  | _ => false

set_option maxRecDepth 100000 in
/-- SRS files are created for it, with and without the main file, and they are small. -/
example : wmvFileIs (wmvOutcome wmvCut.bytes none wmvMovie.bytes) wmvCut.bytes = true ∧
    wmvFileIs (wmvOutcome wmvCut.bytes (some wmvMovie.bytes) wmvMovie.bytes) wmvCut.bytes = true := by decide +kernel

set_option maxRecDepth 100000 in
/-- The hypotheses of `wmv_self_rebuilt` are met. -/
example : wmvExample.Ok ∧ wmvExample.Lucky ∧ (∀ p ∈ wmvExample.pieces, streamData wmvExample.pieces p.stream ≠ []) ∧ wmvExample.pieces ≠ [] :=
  ⟨wmvExample_ok, wmvExample_lucky, by decide +kernel, by decide +kernel⟩

theorem wmvError_spec {sample main : Bytes} {e : Err} (h : wmvErrorIs (wmvOutcome sample none main) e = true) :
    ∃ srs, srsWmvCreate [0x61] [0x73] sample false none = .ok srs ∧ srsWmvReconstruct srs main false = .error e := by
  unfold wmvOutcome at h
  split at h
  · rename_i srs h1
    split at h
    · split at h
      · simp [wmvErrorIs] at h
      · rename_i e' h2
        have : e' = e := by simpa [wmvErrorIs] using h
        exact ⟨srs, h1, this ▸ h2⟩
    · simp [wmvErrorIs] at h
  · simp [wmvErrorIs] at h

/-! ### Samples that are not rebuilt -/

/-- Data of the first stream only. -/
def wmvOneStream : WmvFile := wmvOf 27 [wmvPack true [wmvPlain true 1 [] [10, 11, 12, 13, 14]] []]

set_option maxRecDepth 100000 in
/-- A sample without data of the second stream, all of whose data is in the movie, cannot be rebuilt: the
search fails with an IndexError when it comes to a payload of that stream. -/
theorem wmv_missing_stream_raises : wmvOneStream.Ok ∧ wmvOneStream.Lucky ∧ wmvMovie.Ok ∧
    StartsIn (streamData wmvOneStream.pieces 1) 1 (wmvMovie.pieces.take 2) wmvMovie.pieces[2] 0 (wmvMovie.pieces.drop 3) ∧
    ∃ srs, srsWmvCreate [0x61] [0x73] wmvOneStream.bytes false none = .ok srs ∧
      srsWmvReconstruct srs wmvMovie.bytes false = .error .indexError :=
  ⟨by decide +kernel, lucky_of_one (by decide), by decide +kernel, startsIn_of_check (by decide +kernel), wmvError_spec (by decide +kernel)⟩

/-- The sample with one more payload: no data of a third stream. -/
def wmvEmptyStream : WmvFile :=
  wmvOf 49 [wmvPack true [wmvPlain true 1 [] [10, 11, 12, 13, 14], wmvPlain true 2 [] [55, 56, 57, 58], wmvPlain true 3 [] []] []]

set_option maxRecDepth 100000 in
/-- A payload without data of a stream that is not in the movie: the sample cannot be rebuilt. -/
theorem wmv_empty_stream_raises : wmvEmptyStream.Ok ∧ wmvEmptyStream.Lucky ∧
    (∀ n, streamData wmvEmptyStream.pieces n = streamData wmvCut.pieces n) ∧
    ∃ srs, srsWmvCreate [0x61] [0x73] wmvEmptyStream.bytes false none = .ok srs ∧
      srsWmvReconstruct srs wmvMovie.bytes false = .error .attrError := by
  refine ⟨by decide +kernel, lucky_of_one (by decide), fun n => ?_, wmvError_spec (by decide +kernel)⟩
  by_cases h1 : n = 1
  · subst h1; decide +kernel
  by_cases h2 : n = 2
  · subst h2; decide +kernel
  · have : ∀ p ∈ wmvCut.pieces, p.stream = 1 ∨ p.stream = 2 := by decide +kernel
    rw [streamData_none (ps := wmvCut.pieces) (fun p hp e => by rcases this p hp with h | h <;> omega)]
    by_cases h3 : n = 3
    · subst h3; decide +kernel
    · have : ∀ p ∈ wmvEmptyStream.pieces, p.stream = 1 ∨ p.stream = 2 ∨ p.stream = 3 := by decide +kernel
      exact streamData_none (fun p hp e => by rcases this p hp with h | h | h <;> omega)

/-- The data of the first stream starts with the third byte of the first payload, and the two bytes
before it look like it up to the end of the payload. -/
def wmvFalseStart : WmvFile := wmvOf 39 [wmvBoth [1, 10, 10, 10] [50, 51, 52, 53], wmvBoth [10, 11, 12, 13] [54, 55, 56, 57]]

def wmvFalseCut : WmvFile := wmvOf 40 [wmvBoth [10, 10, 10, 11, 12] [51, 52, 53, 54]]

set_option maxRecDepth 100000 in
/-- A sample whose data is in the movie once only is not found when it starts in a payload where a false
start was met before: the search goes on with the next payload. -/
theorem wmv_false_start_lost : wmvFalseCut.Ok ∧ wmvFalseCut.Lucky ∧ wmvFalseStart.Ok ∧
    (∀ i, (streamData wmvFalseCut.pieces 1).isPrefixOf ((streamData wmvFalseStart.pieces 1).drop i) = true ↔ i = 2) ∧
    (∀ i, (streamData wmvFalseCut.pieces 2).isPrefixOf ((streamData wmvFalseStart.pieces 2).drop i) = true ↔ i = 1) ∧
    ∃ srs, srsWmvCreate [0x61] [0x73] wmvFalseCut.bytes false none = .ok srs ∧
      srsWmvReconstruct srs wmvFalseStart.bytes false = .error .other := by
  have hi : ∀ (d s : Bytes) (k : Nat), d ≠ [] → (∀ i < s.length, d.isPrefixOf (s.drop i) = true ↔ i = k) → k < s.length →
      ∀ i, d.isPrefixOf (s.drop i) = true ↔ i = k := by
    intro d s k hd h hk i
    by_cases hi : i < s.length
    · exact h i hi
    · rw [List.drop_eq_nil_of_le (by omega)]
      constructor
      · intro e
        exact absurd (List.prefix_nil.1 (List.isPrefixOf_iff_prefix.1 e)) hd
      · intro e; omega
  exact ⟨by decide +kernel, lucky_of_one (by decide), by decide +kernel,
    hi _ _ 2 (by decide +kernel) (by decide +kernel) (by decide +kernel),
    hi _ _ 1 (by decide +kernel) (by decide +kernel) (by decide +kernel), wmvError_spec (by decide +kernel)⟩

end Rescene.Props
