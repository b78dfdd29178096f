import Verif.Props.MovCut
/-
C64: a sample and a movie that meet the conditions, and ones that do not.
-/
namespace Rescene.Props
open Rescene Rescene.Spec

namespace Mp4Example

/-- The movie: "mdat" and "moov" with two tracks that have more samples than the sample file. -/
def movie : List MovTop :=
  [.box .narrow mdatType [1, 11, 12, 77, 21, 22, 13, 14, 15, 16, 99, 5],
   .tree .narrow aMoov (trakOf (head0 2) [11] [(1, 2, 1)] [1, 2] ++ trakOf (head0 1) [8, 14] [(1, 2, 1), (2, 4, 1)] [1, 2, 1, 2, 1, 1])]

def movieTracks : List MovLayout := [⟨2, [(11, [1, 2])]⟩, ⟨1, [(8, [1, 2]), (14, [1, 2, 1, 1])]⟩]

end Mp4Example

theorem movie_describes1 : Describes (leaves (trakOf (head0 1) [8, 14] [(1, 2, 1), (2, 4, 1)] [1, 2, 1, 2, 1, 1]))
    ⟨1, [(8, [1, 2]), (14, [1, 2, 1, 1])]⟩ := by
  refine ⟨head0 1, _, rfl, ⟨by decide, List.replicate 12 0, [7], by decide, rfl⟩, by decide, ⟨_, rfl, ?_⟩, ⟨_, rfl, ?_⟩, ⟨_, rfl, rfl, ?_⟩⟩
  · exact ⟨4, Or.inl ⟨rfl, rfl⟩, by decide, by decide, [0, 0, 0, 0], [], by decide, rfl⟩
  · refine ⟨[(1, 2, 1), (2, 4, 1)], by decide, by decide, by decide, ?_, by decide, [0, 0, 0, 0], [], by decide, rfl⟩
    intro i c h
    match i with
    | 0 => simpa using h
    | 1 => simpa using h
    | i + 2 => simp at h
  · exact ⟨by decide, by decide, [0, 0, 0, 0], [], by decide, Or.inl rfl⟩

theorem movie_describes2 : Describes (leaves (trakOf (head0 2) [11] [(1, 2, 1)] [1, 2])) ⟨2, [(11, [1, 2])]⟩ := by
  refine ⟨head0 2, _, rfl, ⟨by decide, List.replicate 12 0, [7], by decide, rfl⟩, by decide, ⟨_, rfl, ?_⟩, ⟨_, rfl, ?_⟩, ⟨_, rfl, rfl, ?_⟩⟩
  · exact ⟨4, Or.inl ⟨rfl, rfl⟩, by decide, by decide, [0, 0, 0, 0], [], by decide, rfl⟩
  · refine ⟨[(1, 2, 1)], by decide, by decide, by decide, ?_, by decide, [0, 0, 0, 0], [], by decide, rfl⟩
    intro i c h
    match i with
    | 0 => simpa using h
    | i + 1 => simp at h
  · exact ⟨by decide, by decide, [0, 0, 0, 0], [], by decide, Or.inl rfl⟩

theorem example_movie : Mp4Movie Mp4Example.movie Mp4Example.movieTracks where
  ok :=
    { ok := by decide +kernel
      ends := by
        simp [Mp4Example.movie, flatten, MovTop.flat, trakOf, nest, Ends]
      top := by
        intro a t b e hf
        have hm : t ∈ Mp4Example.movie := by rw [e]; simp
        simp only [Mp4Example.movie, List.mem_cons, List.not_mem_nil, or_false] at hm
        rcases hm with rfl | rfl
        · simp [MovTop.form] at hf
        · simp [MovTop.form] at hf
      inner := by
        intro form type inner hm
        simp only [Mp4Example.movie, List.mem_cons, List.not_mem_nil, or_false, reduceCtorEq, false_or, MovTop.tree.injEq] at hm
        obtain ⟨rfl, rfl, rfl⟩ := hm
        constructor
        · simp only [trakOf, nest, List.cons_append, List.nil_append, Fits]
          decide +kernel
        · decide +kernel }
  tables := by
    refine ⟨⟨[(mdatType, [1, 11, 12, 77, 21, 22, 13, 14, 15, 16, 99, 5])], _, rfl, by decide, ?_⟩, by decide⟩
    exact ⟨_, _, rfl, movie_describes2, _, [], (List.append_nil _).symm, movie_describes1, rfl⟩
  some := by decide +kernel
  samples := by decide +kernel
  ordered := by decide +kernel
  size := by decide +kernel

/-- The starts of the samples of a track. -/
def startsOf : Nat → List Nat → List Nat
  | _, [] => []
  | p, s :: l => p :: startsOf (p + s) l

theorem startsOf_mem : ∀ {l : List Nat} {p : Nat} {a b : List Nat} {s : Nat}, l = a ++ s :: b → p + a.sum ∈ startsOf p l
  | _, p, [], b, s, h => by subst h; simp [startsOf]
  | _, p, t :: a, b, s, h => by
    subst h
    rw [List.cons_append, startsOf, List.sum_cons, ← Nat.add_assoc]
    exact List.mem_cons_of_mem _ (startsOf_mem rfl)

theorem cut_of {d file : Bytes} {t : MovLayout} {p : Nat} (hp : SampleStart t p) (hd : d <+: (layoutData file t).drop p)
    (h : ∀ q ∈ startsOf 0 (t.chunks.flatMap (·.2)), d.take 256 <+: (layoutData file t).drop q → p ≤ q) : CutMp4 d file t := by
  refine ⟨p, hp, hd, fun q hq => h q ?_⟩
  obtain ⟨a, s, b, e, rfl⟩ := hq
  have := startsOf_mem (p := 0) e
  rwa [Nat.zero_add] at this

/-- The tracks of the sample are cut out of the movie. -/
theorem example_cut : ∀ t ∈ Mp4Example.tracks, ∃ u ∈ Mp4Example.movieTracks, u.id = t.id ∧
    CutMp4 (layoutData (mp4Bytes Mp4Example.before .narrow Mp4Example.media Mp4Example.after) t) (topBytes Mp4Example.movie) u := by
  intro t ht
  simp only [Mp4Example.tracks, List.mem_cons, List.not_mem_nil, or_false] at ht
  rcases ht with rfl | rfl
  · exact ⟨⟨1, [(8, [1, 2]), (14, [1, 2, 1, 1])]⟩, by decide, rfl,
      cut_of (p := 1) ⟨[1], 2, [1, 2, 1, 1], by decide, rfl⟩ (by decide +kernel) (by decide +kernel)⟩
  · exact ⟨⟨2, [(11, [1, 2])]⟩, by decide, rfl,
      cut_of (p := 1) ⟨[1], 2, [], by decide, rfl⟩ (by decide +kernel) (by decide +kernel)⟩

/-- What is rebuilt from the example movie. -/
example {srs : Bytes} (h : srsMp4Create [97] [98] Mp4Example.file false none = .ok srs) (hbig : srs.length < 2 ^ 63) (ig : Bool) :
    srsMp4Reconstruct srs (topBytes Mp4Example.movie) ig =
      .ok ⟨Mp4Example.file, Mp4Example.file.length, (crc32 Mp4Example.file 0).toNat, true⟩ :=
  mp4_cut_rebuilt_partial example_plain (by decide) h hbig example_movie example_cut ig

/-- The condition of `mp4_incomplete_refused` holds for the movie, whose media data is that of its tracks
and one byte more. -/
example : ¬ ∃ r, mp4Profile (topBytes Mp4Example.movie) = .ok r := by
  rw [mp4_incomplete_refused example_movie.ok example_movie.tables (fun t ht c hc => (example_movie.samples t ht c hc).2.2)
    example_movie.size (by decide +kernel)]
  decide +kernel

/-! ### Samples that are not rebuilt from a movie they are in -/

/-- What is rebuilt from a sample's SRS and a movie; `check` is whether the movie is given when the SRS
is made. -/
def rebuiltFrom (sample movie : Bytes) (check : Bool) : Res (Bytes × Bool) := do
  let srs ← srsMp4Create [97] [98] sample false (if check then some movie else none)
  let r ← srsMp4Reconstruct srs movie false
  return (r.file, r.good)

/-- One track with these samples, in one chunk. -/
def oneTrack (data : Bytes) (sizes : List Nat) : Bytes := topBytes [.box .narrow mdatType data,
  .tree .narrow aMoov (trakOf (head0 1) [8] [(1, sizes.length, 1)] sizes)]

set_option maxRecDepth 100000 in
/-- Only the first place with the first 256 bytes of a track is tried: a result with a wrong CRC. -/
theorem mp4_repeated_signature : ∃ out, rebuiltFrom (oneTrack (List.replicate 256 0 ++ [1]) [257])
      (oneTrack (0 :: List.replicate 256 0 ++ [1]) [1, 257]) false = .ok (out, false) ∧
    rebuiltFrom (oneTrack (List.replicate 256 0 ++ [1]) [257]) (oneTrack (2 :: List.replicate 256 0 ++ [1]) [1, 257]) false =
      .ok (oneTrack (List.replicate 256 0 ++ [1]) [257], true) :=
  ⟨oneTrack (List.replicate 257 0) [257], by decide +kernel, by decide +kernel⟩

set_option maxRecDepth 100000 in
/-- Data that does not start at a sample of the movie is not found. -/
theorem mp4_inside_sample_not_found :
    rebuiltFrom (oneTrack [1, 2] [2]) (oneTrack [3, 1, 2] [3]) false = .error .other ∧
    rebuiltFrom (oneTrack [1, 2] [2]) (oneTrack [3, 1, 2] [1, 2]) false = .ok (oneTrack [1, 2] [2], true) := by decide +kernel

/-- A sample with a second track that has no data. -/
def emptyTrackMp4 : Bytes := topBytes [.box .narrow mdatType [1, 2],
  .tree .narrow aMoov (trakOf (head0 1) [8] [(1, 1, 1)] [2] ++ trakOf (head0 2) [10] [(1, 1, 1)] [0])]

set_option maxRecDepth 100000 in
/-- A track without data is left out of an SRS that is made with the movie at hand, and the sample is
then never rebuilt, not even from itself. -/
theorem mp4_checked_empty_track : rebuiltFrom emptyTrackMp4 emptyTrackMp4 true = .error .keyError ∧
    rebuiltFrom emptyTrackMp4 emptyTrackMp4 false = .ok (emptyTrackMp4, true) := by decide +kernel

end Rescene.Props
