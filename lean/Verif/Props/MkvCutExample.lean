import Verif.Props.MkvExample
import Verif.Props.MkvCut
/-
C66: a sample and a movie that meet the conditions, and ones that are not rebuilt.
-/
namespace Rescene.Props
open Rescene Rescene.Spec

/-- The elements of a description come after a number; `seen`: there was one. -/
def numberCheck (seen : Bool) : List MkvPart → Bool
  | [] => true
  | p :: ps => (seen || decide (p.id ∉ [compressionId, codecId, compAlgoId, compSettingsId])) &&
    numberCheck (seen || (match p with | .leaf id _ _ => decide (id = trackNumberId) | _ => false)) ps

theorem numberCheck_ok : ∀ {ps : List MkvPart} {seen : Bool}, numberCheck seen ps = true → ∀ a p b, ps = a ++ p :: b →
    p.id ∈ [compressionId, codecId, compAlgoId, compSettingsId] → seen = true ∨ ∃ size data, .leaf trackNumberId size data ∈ a
  | [], _, _, a, p, b, e, _ => by simp at e
  | q :: ps, seen, h, a, p, b, e, hp => by
    simp only [numberCheck, Bool.and_eq_true] at h
    cases a with
    | nil =>
      rw [List.nil_append] at e
      injection e with e _
      subst e
      rcases Bool.or_eq_true_iff.1 h.1 with h | h
      · exact Or.inl h
      · exact absurd hp (of_decide_eq_true h)
    | cons r a =>
      rw [List.cons_append] at e
      injection e with e1 e2
      subst e1
      rcases numberCheck_ok h.2 a p b e2 hp with h | ⟨size, data, h⟩
      · rcases Bool.or_eq_true_iff.1 h with h | h
        · exact Or.inl h
        · cases q with
          | enter => simp at h
          | block => simp at h
          | leaf id size data =>
            have : id = trackNumberId := by simpa using h
            subst this
            exact Or.inr ⟨size, data, by simp⟩
      · exact Or.inr ⟨size, data, List.mem_cons_of_mem _ h⟩

def attachCheck : MkvTop → Bool
  | .master id _ inner => decide (id = attachmentsId) && inner.all fun
    | .enter id _ => decide (id = attachedFileId)
    | .leaf id _ _ => decide (id ∉ specialIds ∨ id ∈ [fileNameId, fileDataId])
    | .block _ => false
  | _ => false

theorem attachCheck_ok {t : MkvTop} (h : attachCheck t = true) : IsAttachments t := by
  unfold attachCheck at h
  split at h
  · rename_i id size inner
    simp only [Bool.and_eq_true, decide_eq_true_eq, List.all_eq_true] at h
    obtain ⟨rfl, h⟩ := h
    refine ⟨size, inner, rfl, ?_⟩
    intro p hp
    have := h p hp
    cases p with
    | enter id size => exact Or.inl ⟨size, by simpa using this⟩
    | leaf id size data => exact Or.inr ⟨id, size, data, rfl, of_decide_eq_true this⟩
    | block b => simp at this
  · simp at h

def wholeCluster : MkvTop → Bool
  | .master id _ inner => decide (id = clusterId) && inner.all clusterCheck
  | _ => false

theorem wholeCluster_ok {t : MkvTop} (h : wholeCluster t = true) : IsCluster t := by
  unfold wholeCluster at h
  split at h
  · rename_i id size inner
    simp only [Bool.and_eq_true, decide_eq_true_eq, List.all_eq_true] at h
    obtain ⟨rfl, h⟩ := h
    exact ⟨size, inner, rfl, fun p hp => clusterCheck_ok (h p hp)⟩
  · simp at h

def describedCheck (info : List MkvPart) (bs : List MkvBlock) : Bool :=
  bs.all fun b => info.any fun
    | .leaf id _ data => decide (id = trackNumberId ∧ ofBe data = b.track)
    | _ => false

def movieCheck (bs : List MkvBlock) (lead : List MkvTop) (seg : Bytes) (info media : List MkvTop) (l : List (Bytes × Bytes)) : Bool :=
  (mkvFine (lead ++ .part (.enter segmentId seg) :: (info ++ media))).all (partCheck bs) &&
  ((info ++ media).all innerCheck &&
  (lead.all plainCheck && (info.all (fun t => plainCheck t || (tracksCheck t || attachCheck t)) &&
  (media.all (fun t => plainCheck t || wholeCluster t) &&
  (describedCheck (mkvFine info) bs && (numberCheck false (mkvFine info) &&
  (decide (attachments none (mkvFine info) = l.map (fun x => (some x.1, x.2))) &&
  decide (l.Pairwise fun a b => a.1 ≠ b.1))))))))

theorem movieCheck_ok {bs : List MkvBlock} {lead : List MkvTop} {seg : Bytes} {info media : List MkvTop} {l : List (Bytes × Bytes)}
    (hb : ∀ b ∈ bs, b.Ok) (h : movieCheck bs lead seg info media l = true) : PlainMovie lead seg info media := by
  unfold movieCheck at h
  simp only [Bool.and_eq_true, decide_eq_true_eq] at h
  obtain ⟨h1, h2, h4, h5, h6, h7, h3, h8, h9⟩ := h
  rw [List.all_eq_true] at h1 h2 h4 h5 h6
  exact
    { ok := fun p hp => partCheck_ok hb (h1 p hp)
      inner := fun id size inner hm => by simpa [innerCheck] using h2 _ hm
      leads := fun t ht => plainCheck_ok (h4 t ht)
      infos := fun t ht => by
        rcases Bool.or_eq_true_iff.1 (h5 t ht) with h | h
        · exact Or.inl (plainCheck_ok h)
        · rcases Bool.or_eq_true_iff.1 h with h | h
          · exact Or.inr (Or.inl (tracksCheck_ok h))
          · exact Or.inr (Or.inr (attachCheck_ok h))
      medias := fun t ht => by
        rcases Bool.or_eq_true_iff.1 (h6 t ht) with h | h
        · exact Or.inl (plainCheck_ok h)
        · exact Or.inr (wholeCluster_ok h)
      described := fun b hm => by
        have hin : b ∈ bs := by
          have := h1 (.block b) (by simp [mkvFine] at hm ⊢; right; right; right; exact hm)
          simpa [partCheck] using this
        have := List.any_eq_true.1 (List.all_eq_true.1 h7 b hin)
        obtain ⟨p, hp, h⟩ := this
        cases p with
        | enter => simp at h
        | block => simp at h
        | leaf id size data =>
          have h2 := of_decide_eq_true h
          obtain ⟨rfl, h2⟩ := h2
          exact ⟨size, data, hp, h2⟩
      number := fun a p b e hp => (numberCheck_ok h3 a p b e hp).resolve_left (by simp)
      names := ⟨l, h8, h9⟩ }

theorem sig_short {sig data : Bytes} (h : IsSignature sig data) (hd : data.length < 256) : sig = data :=
  h.2.1 (by have := h.1.length_le; omega)

theorem single_unlike {g : Bytes → Bytes} {f sig : Bytes} (h : ¬ (g f).take sig.length <+: sig) :
    ∀ a b, [f] = a ++ b → b ≠ [] → ¬ (b.map g).flatten.take sig.length <+: sig := by
  intro a b e hb
  cases b with
  | nil => exact absurd rfl hb
  | cons y b =>
    cases a with
    | cons z a => have := congrArg List.length e; simp at this
    | nil =>
      rw [List.nil_append, List.cons.injEq] at e
      rw [← e.1, ← e.2]
      simpa using h

namespace MkvExample

/-- The movie has the same tracks, without stripped headers, in other blocks. -/
def movieInfo : List MkvTop :=
  [masterOf tracksId (trackOf 2 none ++ trackOf 1 none),
   masterOf attachmentsId (nestOf attachedFileId [leafOf fileNameId [98], leafOf fileDataId [4]] ++
    nestOf attachedFileId [leafOf fileNameId [99], leafOf fileDataId [5, 5]] ++
    nestOf attachedFileId [leafOf fileNameId [97], leafOf fileDataId [1, 2, 3]])]
def m1 : MkvBlock := ⟨[0xA3], shortSize 7, 1, shortSize 1, [0, 7], 0, [], [[9, 8, 7]]⟩
def m2 : MkvBlock := ⟨[0xA3], shortSize 5, 2, shortSize 2, [0, 7], 0, [], [[20]]⟩
def m3 : MkvBlock := ⟨[0xA3], shortSize 13, 1, shortSize 1, [0, 7], 4, [1], [[9, 8, 11, 12], [9, 8, 13, 14]]⟩
def m4 : MkvBlock := ⟨[0xA3], shortSize 14, 1, shortSize 1, [0, 7], 4, [2], [[9, 8, 15], [9, 8, 16], [9, 8, 17]]⟩
def m5 : MkvBlock := ⟨[0xA3], shortSize 7, 2, shortSize 2, [0, 7], 0, [], [[21, 22, 23]]⟩
def m6 : MkvBlock := ⟨[0xA3], shortSize 6, 2, shortSize 2, [0, 7], 0, [], [[24, 25]]⟩
def movieMedia : List MkvTop :=
  [masterOf clusterId ([leafOf [0xE7] [5]] ++ [.block m1, .block m2]), .part (leafOf [0x1C, 0x53, 0xBB, 0x6B] [1]),
   masterOf clusterId ([leafOf [0xE7] [6], .block m3] ++ nestOf blockGroupId [.block m5, leafOf [0xFB] [1]] ++ [.block m4, .block m6])]
def movieTops : List MkvTop := lead ++ .part (.enter segmentId seg) :: (movieInfo ++ movieMedia)
def movie : Bytes := mkvFile movieTops

end MkvExample

theorem plain_block_ok {n : Nat} {num f : Bytes} (h : IsVint num.length n num) {size : Bytes}
    (hs : IsVint size.length ((num ++ ([0, 7] ++ [0])).length + f.length) size) :
    (⟨[0xA3], size, n, num, [0, 7], 0, [], [f]⟩ : MkvBlock).Ok where
  id := by simp [blockIds]
  track := h
  time := rfl
  lace := ⟨.none, show (0 : Nat) = 0 / 2 % 4 from rfl, by unfold Laced; simp, by simp⟩
  size := by simpa [MkvBlock.head, MkvBlock.data] using hs

set_option maxRecDepth 100000 in
theorem example_mkv_movie : PlainMovie MkvExample.lead MkvExample.seg MkvExample.movieInfo MkvExample.movieMedia :=
  movieCheck_ok (bs := [MkvExample.m1, MkvExample.m2, MkvExample.m3, MkvExample.m4, MkvExample.m5, MkvExample.m6])
    (l := [([98], [4]), ([99], [5, 5]), ([97], [1, 2, 3])])
    (by
      intro b hb
      simp only [List.mem_cons, List.not_mem_nil, or_false] at hb
      rcases hb with rfl | rfl | rfl | rfl | rfl | rfl
      · exact plain_block_ok (by decide) (by decide)
      · exact plain_block_ok (by decide) (by decide)
      · exact ⟨by decide, by decide, rfl, ⟨.fixed, rfl, ⟨by decide, by decide, ⟨4, by decide⟩, rfl⟩, fun _ => by decide⟩, by decide⟩
      · exact ⟨by decide, by decide, rfl, ⟨.fixed, rfl, ⟨by decide, by decide, ⟨3, by decide⟩, rfl⟩, fun _ => by decide⟩, by decide⟩
      · exact plain_block_ok (by decide) (by decide)
      · exact plain_block_ok (by decide) (by decide)) (by decide +kernel)

theorem example_tracks {n : Nat} (h : HasTrack (mkvFine MkvExample.tops) n) : n = 1 ∨ n = 2 := by
  rcases h with ⟨b, hb, h⟩ | ⟨size, data, hb, h⟩
  · simp [mkvFine, MkvExample.tops, MkvExample.lead, MkvExample.info, MkvExample.media, MkvTop.fine, leafOf, masterOf, trackOf, nestOf] at hb
    rcases hb with rfl | rfl | rfl <;> simp [← h, MkvExample.xiph, MkvExample.single, MkvExample.fixed]
  · simp [mkvFine, MkvExample.tops, MkvExample.lead, MkvExample.info, MkvExample.media, MkvTop.fine, leafOf, masterOf, trackOf, nestOf,
      trackNumberId, codecId, fileNameId, fileDataId, compAlgoId, compSettingsId] at hb
    rcases hb with ⟨_, rfl⟩ | ⟨_, rfl⟩ <;> rw [← h] <;> decide

theorem example_block {n : Nat} (h : ∃ b, .block b ∈ mkvFine MkvExample.media ∧ b.track = n) : n = 1 ∨ n = 2 := by
  obtain ⟨b, hb, h⟩ := h
  exact example_tracks (Or.inl ⟨b, by simp [mkvFine, MkvExample.tops] at hb ⊢; right; right; right; exact hb, h⟩)

set_option maxRecDepth 100000 in
/-- The tracks of the sample are cut out of the movie. -/
theorem example_mkv_cut {n : Nat} {sig : Bytes} (h : n = 1 ∨ n = 2) (hs : IsSignature sig (mkvTrackData (mkvFine MkvExample.tops) n)) :
    MkvCut (mkvFine MkvExample.movieTops) (mkvFine MkvExample.tops) n sig := by
  rcases h with rfl | rfl
  · have hd : mkvTrackData (mkvFine MkvExample.tops) 1 = [11, 12, 13, 14, 15, 16] := by decide +kernel
    have : sig = [11, 12, 13, 14, 15, 16] := by
      rw [hd] at hs
      exact sig_short hs (by decide)
    subst this
    have h1 : strippedHeader (mkvFine MkvExample.tops) 1 = [9, 8] := by decide +kernel
    have h2 : strippedHeader (mkvFine MkvExample.movieTops) 1 = [] := by decide +kernel
    have h3 : mkvTrackFrames (mkvFine MkvExample.tops) 1 = [[11, 12], [13, 14], [15], [16]] := by decide +kernel
    have h4 : mkvTrackFrames (mkvFine MkvExample.movieTops) 1 =
        [[9, 8, 7], [9, 8, 11, 12], [9, 8, 13, 14], [9, 8, 15], [9, 8, 16], [9, 8, 17]] := by decide +kernel
    refine ⟨⟨_, _, h3, by decide⟩, ⟨[[9, 8, 7]], [[9, 8, 11, 12], [9, 8, 13, 14], [9, 8, 15], [9, 8, 16]], [[9, 8, 17]], h4, ?_, ?_⟩, ?_, ?_, ?_⟩
    · rw [h1, h2, h3]; rfl
    · rw [h1, h2]; exact single_unlike (by decide)
    · rw [h4]; decide
    · rw [h1, h2, h4]; decide
    · rw [h1]; intro h; simp at h
  · have hd : mkvTrackData (mkvFine MkvExample.tops) 2 = [21, 22, 23] := by decide +kernel
    have : sig = [21, 22, 23] := by
      rw [hd] at hs
      exact sig_short hs (by decide)
    subst this
    have h1 : strippedHeader (mkvFine MkvExample.tops) 2 = [] := by decide +kernel
    have h2 : strippedHeader (mkvFine MkvExample.movieTops) 2 = [] := by decide +kernel
    have h3 : mkvTrackFrames (mkvFine MkvExample.tops) 2 = [[21, 22, 23]] := by decide +kernel
    have h4 : mkvTrackFrames (mkvFine MkvExample.movieTops) 2 = [[20], [21, 22, 23], [24, 25]] := by decide +kernel
    refine ⟨⟨_, _, h3, by decide⟩, ⟨[[20]], [[21, 22, 23]], [[24, 25]], h4, ?_, ?_⟩, ?_, ?_, ?_⟩
    · rw [h1, h2, h3]
    · rw [h1, h2]; exact single_unlike (by decide)
    · rw [h4]; decide
    · exact Or.inl (by rw [h1, h2])
    · rw [h2, h3]
      intro _ k hk
      simp only [List.length_nil, Nat.add_zero]
      omega

set_option maxRecDepth 100000 in
/-- What is rebuilt from the example movie. -/
theorem example_mkv_rebuilt {srs : Bytes} (h : srsMkvCreate [97] [98] MkvExample.file false none = .ok srs) (ig : Bool) :
    srsMkvReconstruct srs MkvExample.movie ig =
      .ok ⟨MkvExample.file, MkvExample.file.length, (crc32 MkvExample.file 0).toNat, true⟩ := by
  have hn : ∀ n, HasTrack (mkvFine MkvExample.tops) n → n < 2 ^ 16 := by
    intro n h
    rcases example_tracks h with rfl | rfl <;> decide
  obtain ⟨⟨ts, hl, hr⟩, _⟩ := mkv_strip_rebuild_partial example_mkv hn h
  refine mkv_cut_rebuilt_partial example_mkv example_mkv_movie hn h hl ?_ ?_
  · intro n t hg hb
    exact example_mkv_cut (example_block hb) (hr.known n t hg).2.2.1
  · decide +kernel

set_option maxRecDepth 100000 in
/-- The example meets the conditions of `mkv_create_succeeds`. -/
example : ∃ srs, srsMkvCreate [97] [98] MkvExample.file false none = .ok srs := by
  refine mkv_create_succeeds example_mkv (fun n h => by rcases example_tracks h with rfl | rfl <;> decide)
    ⟨2, Or.inl ⟨MkvExample.single, by decide +kernel, rfl⟩⟩ ?_ ?_ (by decide +kernel) (by unfold Encodable; decide) (by unfold Encodable; decide)
  · intro a p b e hp
    exact (numberCheck_ok (seen := false) (by decide +kernel) a p b e hp).resolve_left (by simp)
  · intro size n hm
    simp [mkvFine, MkvExample.media, MkvTop.fine, leafOf, masterOf, nestOf, MkvExample.xiph, MkvExample.single, MkvExample.fixed, fileNameId, fileDataId] at hm
    rcases hm with ⟨_, rfl⟩ | ⟨_, rfl⟩
    · exact ⟨[97], by decide⟩
    · exact ⟨[98], by decide⟩

set_option maxRecDepth 100000 in
/-- The example meets the conditions of `mkv_checked_rebuilt_partial`. -/
theorem example_mkv_checked (ig : Bool) : ∃ srs, srsMkvCreate [97] [98] MkvExample.file false (some MkvExample.movie) = .ok srs ∧
    srsMkvReconstruct srs MkvExample.movie ig =
      .ok ⟨MkvExample.file, MkvExample.file.length, (crc32 MkvExample.file 0).toNat, true⟩ := by
  have hm : (match srsMkvCreate [97] [98] MkvExample.file false (some MkvExample.movie) with
      | .error _ => false
      | .ok srs => match mkvLoadSrs srs with
        | .error _ => false
        | .ok (_, ts) => ts.all fun x => (x.1 == 1 || x.1 == 2) && x.2.sig == mkvTrackData (mkvFine MkvExample.tops) x.1) = true := by
    decide +kernel
  cases hs : srsMkvCreate [97] [98] MkvExample.file false (some MkvExample.movie) with
  | error e => rw [hs] at hm; simp at hm
  | ok srs =>
    rw [hs] at hm
    dsimp only at hm
    refine ⟨srs, rfl, ?_⟩
    cases hl : mkvLoadSrs srs with
    | error e => rw [hl] at hm; simp at hm
    | ok r =>
      obtain ⟨f, ts⟩ := r
      rw [hl] at hm
      dsimp only at hm
      refine mkv_checked_rebuilt_partial example_mkv example_mkv_movie
        (fun n h => by rcases example_tracks h with rfl | rfl <;> decide) hs hl ?_ ?_ ?_
      · intro b hb
        rcases example_block ⟨b, hb, rfl⟩ with h | h <;> rw [h] <;> decide +kernel
      · intro n t hg _
        have := List.all_eq_true.1 hm _ (movGet_eq_some hg)
        simp only [Bool.and_eq_true, Bool.or_eq_true, beq_iff_eq] at this
        refine example_mkv_cut this.1 ?_
        rw [this.2]
        refine ⟨List.prefix_rfl, fun _ => rfl, ?_⟩
        rcases this.1 with rfl | rfl <;> decide +kernel
      · decide +kernel

namespace MkvExample

/-- The example sample read as a movie. -/
def selfInfo : List MkvTop := info ++ [masterOf attachmentsId
  (nestOf attachedFileId [leafOf fileNameId [97], leafOf fileDataId [1, 2, 3]] ++
    nestOf attachedFileId [leafOf fileNameId [98], leafOf fileDataId [4]])]
def selfMedia : List MkvTop :=
  [masterOf clusterId ([leafOf [0xE7] [5], .block xiph] ++ nestOf blockGroupId [.block single, leafOf [0xFB] [1]] ++ [.block fixed])]

end MkvExample

set_option maxRecDepth 100000 in
/-- The example meets the conditions of `mkv_self_rebuilt`. -/
theorem example_mkv_self {srs : Bytes} (h : srsMkvCreate [97] [98] MkvExample.file false none = .ok srs) (ig : Bool) :
    srsMkvReconstruct srs MkvExample.file ig =
      .ok ⟨MkvExample.file, MkvExample.file.length, (crc32 MkvExample.file 0).toNat, true⟩ := by
  have hm : PlainMovie MkvExample.lead MkvExample.seg MkvExample.selfInfo MkvExample.selfMedia :=
    movieCheck_ok (bs := [MkvExample.xiph, MkvExample.single, MkvExample.fixed]) (l := [([97], [1, 2, 3]), ([98], [4])])
      (by
        intro b hb
        simp only [List.mem_cons, List.not_mem_nil, or_false] at hb
        rcases hb with rfl | rfl | rfl
        · exact xiph_ok
        · exact single_ok
        · exact fixed_ok) (by decide +kernel)
  refine mkv_self_rebuilt example_mkv hm (by decide +kernel)
    (fun n h => by rcases example_tracks h with rfl | rfl <;> decide) ?_ h
  intro b hb
  have hb : MkvPart.block b ∈ mkvFine MkvExample.tops := hb
  simp [mkvFine, MkvExample.tops, MkvExample.lead, MkvExample.info, MkvExample.media, MkvTop.fine, leafOf, masterOf, trackOf, nestOf] at hb
  rcases hb with rfl | rfl | rfl <;> decide

/-! ### Samples that are not rebuilt -/

/-- What is rebuilt from a sample's SRS and a movie. -/
def mkvRebuiltFrom (sample movie : Bytes) : Res (Bytes × Bool) := do
  let srs ← srsMkvCreate [97] [98] sample false none
  let r ← srsMkvReconstruct srs movie false
  return (r.file, r.good)

namespace MkvExample

def mk (info media : List MkvTop) : Bytes := mkvFile (lead ++ .part (.enter segmentId seg) :: (info ++ media))
def one (strip : Option Bytes) : List MkvTop := [masterOf tracksId (trackOf 1 strip)]
def clusterOf (blocks : List MkvPart) : MkvTop := masterOf clusterId (leafOf [0xE7] [5] :: blocks)
def framesOf (fs : List Bytes) : MkvTop := clusterOf (fs.map fun f => blockOf [0xA3] 1 0 [] [f])
def attached (files : List (Bytes × Bytes)) : MkvTop :=
  masterOf attachmentsId (files.flatMap fun f => nestOf attachedFileId [leafOf fileNameId f.1, leafOf fileDataId f.2])
/-- An element with a size in two bytes. -/
def longMaster (id : Bytes) (inner : List MkvPart) : MkvTop := .master id
  [UInt8.ofNat (64 + (mkvBytes inner).length / 256), UInt8.ofNat ((mkvBytes inner).length % 256)] inner

end MkvExample
open MkvExample

set_option maxRecDepth 100000 in
/-- Most files are rebuilt from themselves. -/
theorem mkv_self_example : mkvRebuiltFrom (mk (one none) [attached [([97], [1])], framesOf [[11, 12, 13]]])
      (mk (one none) [attached [([97], [1])], framesOf [[11, 12, 13]]]) =
    .ok (mk (one none) [attached [([97], [1])], framesOf [[11, 12, 13]]], true) := by decide +kernel

set_option maxRecDepth 100000 in
/-- A file with attachments after the clusters is not rebuilt, not even from itself: the movie is not read
on when all frames are found. -/
theorem mkv_late_attachments : mkvRebuiltFrom (mk (one none) [framesOf [[11, 12, 13]], attached [([97], [1])]])
    (mk (one none) [framesOf [[11, 12, 13]], attached [([97], [1])]]) = .error .keyError := by decide +kernel

set_option maxRecDepth 100000 in
/-- A file with two attachments of the same name is not rebuilt, not even from itself. -/
theorem mkv_same_name : mkvRebuiltFrom (mk (one none) [attached [([97], [1]), ([97], [2])], framesOf [[11, 12, 13]]])
    (mk (one none) [attached [([97], [1]), ([97], [2])], framesOf [[11, 12, 13]]]) = .error .assertError := by decide +kernel

set_option maxRecDepth 100000 in
/-- Number 200 of a track, in one byte, is taken for 72: no block of track 200 is found in a movie that
describes the track. -/
theorem mkv_track_200 : mkvRebuiltFrom
      (mk [masterOf tracksId (trackOf 200 none)] [clusterOf [.block ⟨[0xA3], shortSize 8, 200, [0x40, 0xC8], [0, 7], 0, [], [[11, 12, 13]]⟩]])
      (mk [masterOf tracksId (trackOf 200 none)] [clusterOf [.block ⟨[0xA3], shortSize 8, 200, [0x40, 0xC8], [0, 7], 0, [], [[11, 12, 13]]⟩]]) =
    .error .keyError := by decide +kernel

set_option maxRecDepth 100000 in
/-- When the sample strips one byte and the movie two, or the other way around, no frame is found (exit
status 3), although the code that extracts frames expects it. -/
theorem mkv_strips_differ :
    mkvRebuiltFrom (mk (one (some [9])) [framesOf [[8, 11, 12]]]) (mk (one (some [9, 8])) [framesOf [[11, 12]]]) = .error .other ∧
    mkvRebuiltFrom (mk (one (some [9, 8])) [framesOf [[11, 12]]]) (mk (one (some [9])) [framesOf [[8, 11, 12]]]) = .error .other := by
  decide +kernel

set_option maxRecDepth 100000 in
/-- A start of the sample that is part of an earlier look-alike is missed; one after it is found. -/
theorem mkv_overlapping_start :
    mkvRebuiltFrom (mk (one none) [framesOf [[1], [1], [2]]]) (mk (one none) [framesOf [[1], [1], [1], [2]]]) = .error .other ∧
    mkvRebuiltFrom (mk (one none) [framesOf [[1], [1], [2]]]) (mk (one none) [framesOf [[1], [3], [1], [1], [2]]]) =
      .ok (mk (one none) [framesOf [[1], [1], [2]]], true) := by
  decide +kernel

set_option maxRecDepth 100000 in
/-- There is no SRS of a sample with a cluster of unknown size. -/
theorem mkv_unknown_cluster : srsMkvCreate [97] [98]
    (mk (one none) [.part (.enter clusterId seg), .part (leafOf [0xE7] [5]), .part (blockOf [0xA3] 1 0 [] [[11, 12, 13]])]) false none =
      .error .invalidData := by decide +kernel

set_option maxRecDepth 100000 in
/-- There is no SRS of a sample with the codec before the number of the track. -/
theorem mkv_codec_first : srsMkvCreate [97] [98]
    (mk [masterOf tracksId (nestOf trackEntryId [leafOf codecId [86, 95], leafOf trackNumberId [1]])] [framesOf [[11, 12, 13]]]) false none =
      .error .keyError := by decide +kernel

set_option maxRecDepth 100000 in
/-- An SRS element that is in the sample is lost. -/
theorem mkv_own_element : mkvRebuiltFrom (mk (one none) [.part (leafOf [0x1F, 0x69, 0x75, 0x76] [1]), framesOf [[11, 12, 13]]])
      (mk (one none) [.part (leafOf [0x1F, 0x69, 0x75, 0x76] [1]), framesOf [[11, 12, 13]]]) =
    .ok (mk (one none) [framesOf [[11, 12, 13]]], false) := by decide +kernel

set_option maxRecDepth 100000 in
/-- A sample without any data of its tracks is not rebuilt, not even from itself. -/
theorem mkv_empty_frames : mkvRebuiltFrom (mk (one none) [framesOf [[]]]) (mk (one none) [framesOf [[]]]) = .error .attrError := by
  decide +kernel

namespace MkvExample

/-- 255 bytes in three frames, and then a fourth. -/
def longFrames (strip : Bytes) : MkvTop := longMaster clusterId (leafOf [0xE7] [5] ::
  ((List.replicate 3 (List.replicate 83 7) ++ [[1]] : List Bytes).map fun f => blockOf [0xA3] 1 0 [] [strip ++ f]))

end MkvExample

set_option maxRecDepth 100000 in
/-- The 256 bytes that are searched for end within the two bytes at the start of the fourth frame.  A
movie with the same frames, with those bytes stripped, is not accepted, though without it is. -/
theorem mkv_signature_ends_in_strip :
    mkvRebuiltFrom (mk (one none) [longFrames [9, 8]]) (mk (one (some [9, 8])) [longFrames []]) = .error .other ∧
    mkvRebuiltFrom (mk (one none) [longFrames [9, 8]]) (mk (one none) [longFrames [9, 8]]) = .ok (mk (one none) [longFrames [9, 8]], true) := by
  decide +kernel

end Rescene.Props
