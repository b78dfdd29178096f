import Verif.Props.Mov
/-
C40: a sample that meets the conditions, and samples that are not rebuilt.
-/
namespace Rescene.Props
open Rescene Rescene.Spec

/-- An atom with others in it. -/
def nest (type : Bytes) (inner : List MovPart) : List MovPart := .enter .narrow type (movBytes inner).length :: inner

/-- A "trak" with these tables. -/
def trakOf (head : Bytes) (offsets : List Nat) (runs : List (Nat × Nat × Nat)) (sizes : List Nat) : List MovPart :=
  nest aTrak (.leaf .narrow tkhdType head :: nest aMdia (nest aMinf (nest aStbl
    [.leaf .narrow stszType ([0, 0, 0, 0] ++ (be 4 0 ++ (be 4 sizes.length ++ (numbers 4 sizes ++ [])))),
     .leaf .narrow stscType ([0, 0, 0, 0] ++ (be 4 runs.length ++ ((runs.flatMap fun r => be 4 r.1 ++ (be 4 r.2.1 ++ be 4 r.2.2)) ++ []))),
     .leaf .narrow stcoType ([0, 0, 0, 0] ++ (be 4 offsets.length ++ (numbers 4 offsets ++ [])))])))

/-- Track headers of version 0. -/
def head0 (id : Nat) : Bytes := List.replicate 12 0 ++ (be 4 id ++ [7])

namespace Mp4Example

/-- "ftyp". -/
def before : List MovTop := [.box .narrow [0x66, 0x74, 0x79, 0x70] [1, 2, 3, 4]]
def media : Bytes := [11, 12, 13, 21, 22, 14, 15, 16]
/-- "moov" with two tracks, and an atom of another type up to the end of the file. -/
def after : List MovTop :=
  [.tree .wide aMoov (trakOf (head0 1) [20, 25] [(1, 2, 1)] [2, 1, 2, 1] ++ trakOf (head0 2) [23] [(1, 1, 1)] [2]),
   .box .unsized [0x66, 0x72, 0x65, 0x65] [9, 9]]
def tracks : List MovLayout := [⟨1, [(20, [2, 1]), (25, [2, 1])]⟩, ⟨2, [(23, [2])]⟩]
def file : Bytes := mp4Bytes before .narrow media after

end Mp4Example

theorem example_describes1 : Describes (leaves (trakOf (head0 1) [20, 25] [(1, 2, 1)] [2, 1, 2, 1])) ⟨1, [(20, [2, 1]), (25, [2, 1])]⟩ := by
  refine ⟨head0 1, _, rfl, ⟨by decide, List.replicate 12 0, [7], by decide, rfl⟩, by decide, ⟨_, rfl, ?_⟩, ⟨_, rfl, ?_⟩, ⟨_, rfl, rfl, ?_⟩⟩
  · exact ⟨4, Or.inl ⟨rfl, rfl⟩, by decide, by decide, [0, 0, 0, 0], [], by decide, rfl⟩
  · refine ⟨[(1, 2, 1)], by decide, by decide, by decide, ?_, by decide, [0, 0, 0, 0], [], by decide, rfl⟩
    intro i c h
    match i with
    | 0 => simpa using h
    | 1 => simpa using h
    | i + 2 => simp at h
  · exact ⟨by decide, by decide, [0, 0, 0, 0], [], by decide, Or.inl rfl⟩

theorem example_describes2 : Describes (leaves (trakOf (head0 2) [23] [(1, 1, 1)] [2]) ++ [([0x66, 0x72, 0x65, 0x65], [9, 9])])
    ⟨2, [(23, [2])]⟩ := by
  refine ⟨head0 2, _, rfl, ⟨by decide, List.replicate 12 0, [7], by decide, rfl⟩, by decide, ⟨_, rfl, ?_⟩, ⟨_, rfl, ?_⟩, ⟨_, rfl, rfl, ?_⟩⟩
  · exact ⟨4, Or.inl ⟨rfl, rfl⟩, by decide, by decide, [0, 0, 0, 0], [], by decide, rfl⟩
  · refine ⟨[(1, 1, 1)], by decide, by decide, by decide, ?_, by decide, [0, 0, 0, 0], [], by decide, rfl⟩
    intro i c h
    match i with
    | 0 => simpa using h
    | i + 1 => simp at h
  · exact ⟨by decide, by decide, [0, 0, 0, 0], [], by decide, Or.inl rfl⟩

/-- The file has two tracks with interleaved chunks, atoms of all forms, and atoms inside others. -/
theorem example_plain : PlainMp4 Mp4Example.before .narrow Mp4Example.media Mp4Example.after Mp4Example.tracks where
  ok :=
    { ok := by decide +kernel
      ends := by
        simp [Mp4Example.before, Mp4Example.after, flatten, MovTop.flat, trakOf, nest, Ends]
        decide
      top := by
        intro a t b e hf
        have hm : t ∈ Mp4Example.before ++ .box .narrow mdatType Mp4Example.media :: Mp4Example.after := by rw [e]; simp
        simp only [Mp4Example.before, Mp4Example.after, List.cons_append, List.nil_append, List.mem_cons, List.not_mem_nil, or_false] at hm
        rcases hm with rfl | rfl | rfl | rfl
        · simp [MovTop.form] at hf
        · simp [MovTop.form] at hf
        · simp [MovTop.form] at hf
        · refine Or.inr ⟨by decide, ?_⟩
          match a with
          | [_, _, _] =>
            simp only [Mp4Example.before, Mp4Example.after, List.cons_append, List.nil_append, List.cons.injEq] at e
            exact e.2.2.2.2.symm
          | [] => simp [Mp4Example.before] at e
          | [_] => simp [Mp4Example.before] at e
          | [_, _] => simp [Mp4Example.before, Mp4Example.after] at e
          | _ :: _ :: _ :: _ :: _ => simp [Mp4Example.before, Mp4Example.after] at e
      inner := by
        intro form type inner hm
        simp only [Mp4Example.before, Mp4Example.after, List.cons_append, List.nil_append, List.mem_cons, List.not_mem_nil, or_false,
          reduceCtorEq, false_or, MovTop.tree.injEq] at hm
        obtain ⟨rfl, rfl, rfl⟩ := hm
        constructor
        · simp only [trakOf, nest, List.cons_append, List.nil_append, Fits]
          decide +kernel
        · decide +kernel }
  own := by decide +kernel
  first := by decide +kernel
  only := by decide +kernel
  tables := by
    refine ⟨⟨[([0x66, 0x74, 0x79, 0x70], [1, 2, 3, 4]), (mdatType, Mp4Example.media)], _, rfl, by decide, ?_⟩, by decide⟩
    exact ⟨_, _, rfl, example_describes1, _, [], (List.append_nil _).symm, example_describes2, rfl⟩
  tiles := ⟨[(20, 3), (23, 2), (25, 3)], by decide +kernel,
    (by decide +kernel : _ = _), (by decide +kernel : _ = _), (by decide +kernel : _ = _), (by decide +kernel : _ = _)⟩
  inside := by decide +kernel
  ordered := by decide +kernel
  size := by decide +kernel

set_option maxRecDepth 100000 in
/-- An SRS of it is created. -/
example : ∃ srs, srsMp4Create [97] [98] (mp4Bytes Mp4Example.before .narrow Mp4Example.media Mp4Example.after) false none = .ok srs ∧
    srs.length < 2 ^ 63 := by
  have h : (match srsMp4Create [97] [98] (mp4Bytes Mp4Example.before .narrow Mp4Example.media Mp4Example.after) false none with
    | .ok srs => decide (srs.length < 2 ^ 63)
    | .error _ => false) = true := by decide +kernel
  split at h
  · rename_i srs e
    exact ⟨srs, e, by simpa using h⟩
  · simp at h

/-! ### Samples that are not rebuilt -/

/-- The sample that is rebuilt from its SRS and the data of its tracks. -/
def rebuiltMp4 (file : Bytes) (tracks : List MovLayout) : Res Bytes := do
  let srs ← srsMp4Create [97] [98] file false none
  let (_, ts) ← mp4LoadSrs srs
  let (out, _) ← mp4Rebuild srs ts fun k => (tracks.find? fun t => t.id == k).map (layoutData file)
  return out

/-- Two "mdat" atoms, with one chunk each. -/
def twoMdat : Bytes := topBytes [.box .narrow mdatType [1, 2], .box .narrow mdatType [3],
  .tree .narrow aMoov (trakOf (head0 1) [8, 18] [(1, 1, 1)] [2, 1])]

/-- A track whose second chunk is stored before its first. -/
def backwardMp4 : Bytes := topBytes [.box .narrow mdatType [1, 2, 3],
  .tree .narrow aMoov (trakOf (head0 1) [10, 8] [(1, 1, 1)] [1, 2])]

/-- Track headers of version 1, with times of 64 bits. -/
def head1 (id : Nat) : Bytes := 1 :: List.replicate 19 0 ++ (be 4 id ++ [7])

def newHeads : Bytes := topBytes [.box .narrow mdatType [1, 2, 3],
  .tree .narrow aMoov (trakOf (head1 1) [8] [(1, 1, 1)] [1] ++ trakOf (head1 2) [9] [(1, 1, 1)] [2])]

def bigId : Bytes := topBytes [.box .narrow mdatType [1, 2, 3],
  .tree .narrow aMoov (trakOf (head0 65536) [8] [(1, 1, 1)] [3])]

/-- A sample with an atom of type "SRSF". -/
def ownAtomMp4 : Bytes := topBytes [.box .narrow mdatType [1, 2, 3],
  .tree .narrow aMoov (trakOf (head0 1) [8] [(1, 1, 1)] [3]), .box .narrow mSRSF [1, 0, 0, 0, 0, 0, 0, 0, 0, 0, 0, 0, 0, 0, 0, 0, 0, 0]]

def noMdat : Bytes := topBytes [.tree .narrow aMoov (trakOf (head0 1) [8] [(1, 1, 1)] [0])]

set_option maxRecDepth 100000 in
/-- The stream data of all "mdat" atoms is written into the first one. -/
theorem mp4_two_mdat_not_rebuilt : ∃ out, rebuiltMp4 twoMdat [⟨1, [(8, [2]), (18, [1])]⟩] = .ok out ∧ out ≠ twoMdat :=
  ⟨topBytes [.box .narrow mdatType [1, 2]] ++ 3 :: movHeader .narrow mdatType 1 ++ twoMdat.drop 19, by decide +kernel, by decide +kernel⟩

set_option maxRecDepth 100000 in
/-- Chunks are written in the order of their offsets, and the data of the track is not. -/
theorem mp4_backward_not_rebuilt : ∃ out, rebuiltMp4 backwardMp4 [⟨1, [(10, [1]), (8, [2])]⟩] = .ok out ∧ out ≠ backwardMp4 :=
  ⟨backwardMp4.take 8 ++ [3, 1, 2] ++ backwardMp4.drop 11, by decide +kernel, by decide +kernel⟩

set_option maxRecDepth 100000 in
/-- Track headers of version 1 are read as if they were of version 0: no sample with two such tracks
is accepted, although the same file with headers of version 0 is. -/
theorem mp4_new_heads_not_accepted : srsMp4Create [97] [98] newHeads false none = .error .assertError := by decide +kernel

set_option maxRecDepth 100000 in
theorem mp4_big_track_number_not_rebuilt :
    (∃ srs, srsMp4Create [97] [98] bigId false none = .ok srs) ∧ rebuiltMp4 bigId [⟨65536, [(8, [3])]⟩] = .error .keyError := by
  have h : (match srsMp4Create [97] [98] bigId false none with | .ok _ => true | .error _ => false) = true := by decide +kernel
  refine ⟨?_, by decide +kernel⟩
  split at h
  · exact ⟨_, by assumption⟩
  · simp at h

set_option maxRecDepth 100000 in
/-- Atoms of the sample that look like ours are left out. -/
theorem mp4_own_atom_not_rebuilt : ∃ out, rebuiltMp4 ownAtomMp4 [⟨1, [(8, [3])]⟩] = .ok out ∧ out ≠ ownAtomMp4 :=
  ⟨ownAtomMp4.take (ownAtomMp4.length - 26), by decide +kernel, by decide +kernel⟩

set_option maxRecDepth 100000 in
/-- The SRS of a sample without "mdat" is created but cannot be loaded. -/
theorem mp4_no_mdat_not_loaded :
    (∃ srs, srsMp4Create [97] [98] noMdat false none = .ok srs) ∧ rebuiltMp4 noMdat [⟨1, [(8, [0])]⟩] = .error .unboundLocal := by
  have h : (match srsMp4Create [97] [98] noMdat false none with | .ok _ => true | .error _ => false) = true := by decide +kernel
  refine ⟨?_, by decide +kernel⟩
  split at h
  · exact ⟨_, by assumption⟩
  · simp at h

end Rescene.Props
