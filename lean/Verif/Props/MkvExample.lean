import Verif.Props.MkvCreate
/-
C41: a sample that meets the conditions, and samples that are not rebuilt.
-/
namespace Rescene.Props
open Rescene Rescene.Spec

instance (n v : Nat) (b : Bytes) : Decidable (IsVint n v b) := by unfold IsVint; infer_instance
instance (b : Bytes) : Decidable (PlainUInt b) := by unfold PlainUInt; infer_instance
instance (b : Bytes) : Decidable (IsNumber b) := by unfold IsNumber; infer_instance

/-! Checks for the conditions, for examples. -/

def partCheck (bs : List MkvBlock) : MkvPart → Bool
  | .enter id size => decide (IsNumber id ∧ id ∉ blockIds ∧ IsNumber size)
  | .leaf id size data => decide (IsNumber id ∧ id ∉ blockIds ∧ IsVint size.length data.length size)
  | .block b => decide (b ∈ bs)

theorem partCheck_ok {bs : List MkvBlock} (h : ∀ b ∈ bs, b.Ok) {p : MkvPart} (hp : partCheck bs p = true) : p.Ok := by
  cases p with
  | enter id size => simpa [partCheck, MkvPart.Ok] using hp
  | leaf id size data => simpa [partCheck, MkvPart.Ok] using hp
  | block b => exact h b (by simpa [partCheck] using hp)

def innerCheck : MkvTop → Bool
  | .part _ => true
  | .master _ size inner => decide (IsVint size.length (mkvBytes inner).length size)

def fitsCheck : List MkvPart → Bool
  | [] => true
  | .enter id size :: ps => (decide (id = segmentId) || decide (numberVal size ≤ (mkvBytes ps).length)) && fitsCheck ps
  | _ :: ps => fitsCheck ps

theorem fitsCheck_ok : ∀ {ps : List MkvPart}, fitsCheck ps = true → MkvFits ps
  | [], _ => trivial
  | .enter id size :: ps, h => by
    simp only [fitsCheck, Bool.and_eq_true, Bool.or_eq_true, decide_eq_true_eq] at h
    exact ⟨fun hn => h.1.resolve_left hn, fitsCheck_ok h.2⟩
  | .leaf .. :: ps, h => fitsCheck_ok (ps := ps) h
  | .block _ :: ps, h => fitsCheck_ok (ps := ps) h

def plainCheck : MkvTop → Bool
  | .part (.leaf id _ _) => decide (id ∉ specialIds)
  | _ => false

theorem plainCheck_ok {t : MkvTop} (h : plainCheck t = true) : PlainLeaf t := by
  unfold plainCheck at h
  split at h
  · exact ⟨_, _, _, rfl, by simpa using h⟩
  · simp at h

def trackPartCheck : MkvPart → Bool
  | .enter id _ => decide (id ∈ [trackEntryId, encodingsId, encodingId, compressionId])
  | .leaf id _ data => decide (id ∉ specialIds ∨ id ∈ [codecId, compSettingsId] ∨ (id ∈ [trackNumberId, compAlgoId] ∧ PlainUInt data))
  | .block _ => false

def tracksCheck : MkvTop → Bool
  | .master id _ inner => decide (id = tracksId) && inner.all trackPartCheck
  | _ => false

theorem tracksCheck_ok {t : MkvTop} (h : tracksCheck t = true) : IsTracks t := by
  unfold tracksCheck at h
  split at h
  · rename_i id size inner
    simp only [Bool.and_eq_true, decide_eq_true_eq, List.all_eq_true] at h
    obtain ⟨rfl, h⟩ := h
    refine ⟨size, inner, rfl, ?_⟩
    intro p hp
    have := h p hp
    cases p with
    | enter id size => exact Or.inl ⟨id, size, rfl, by simpa [trackPartCheck] using this⟩
    | leaf id size data => exact Or.inr ⟨id, size, data, rfl, of_decide_eq_true this⟩
    | block b => simp [trackPartCheck] at this
  · simp at h

def clusterCheck : MkvPart → Bool
  | .enter id _ => decide (id = blockGroupId)
  | .leaf id _ _ => decide (id ∉ specialIds)
  | .block _ => true

theorem clusterCheck_ok {p : MkvPart} (h : clusterCheck p = true) : InCluster p := by
  cases p with
  | enter id size => exact Or.inl ⟨size, by simpa [clusterCheck] using h⟩
  | leaf id size data => exact Or.inr (Or.inl ⟨id, size, data, rfl, by simpa [clusterCheck] using h⟩)
  | block b => exact Or.inr (Or.inr ⟨b, rfl⟩)

def mediaCheck : MkvTop → Bool
  | .master id _ inner => decide (id = clusterId) && inner.all clusterCheck
  | .part (.enter id size) => decide (id ∈ [clusterId, attachmentsId, attachedFileId]) || clusterCheck (.enter id size)
  | .part (.leaf id size data) => decide (id ∈ [fileNameId, fileDataId]) || clusterCheck (.leaf id size data)
  | .part (.block _) => true

theorem mediaCheck_ok {t : MkvTop} (h : mediaCheck t = true) : IsMedia t := by
  unfold mediaCheck at h
  split at h
  · rename_i id size inner
    simp only [Bool.and_eq_true, decide_eq_true_eq, List.all_eq_true] at h
    obtain ⟨rfl, h⟩ := h
    exact Or.inl ⟨size, inner, rfl, fun p hp => clusterCheck_ok (h p hp)⟩
  · rename_i id size
    rw [Bool.or_eq_true] at h
    rcases h with h | h
    · rw [decide_eq_true_eq, List.mem_cons] at h
      rcases h with rfl | h
      · exact Or.inr (Or.inl ⟨size, rfl⟩)
      · exact Or.inr (Or.inr (Or.inl ⟨id, size, rfl, h⟩))
    · exact Or.inr (Or.inr (Or.inr (Or.inr ⟨_, rfl, clusterCheck_ok h⟩)))
  · rename_i id size data
    rw [Bool.or_eq_true] at h
    rcases h with h | h
    · exact Or.inr (Or.inr (Or.inr (Or.inl ⟨id, size, data, rfl, by simpa using h⟩)))
    · exact Or.inr (Or.inr (Or.inr (Or.inr ⟨_, rfl, clusterCheck_ok h⟩)))
  · exact Or.inr (Or.inr (Or.inr (Or.inr ⟨_, rfl, Or.inr (Or.inr ⟨_, rfl⟩)⟩)))

def mkvCheck (bs : List MkvBlock) (lead : List MkvTop) (seg : Bytes) (info media : List MkvTop) (l : List (Bytes × Bytes)) : Bool :=
  (mkvFine (lead ++ .part (.enter segmentId seg) :: (info ++ media))).all (partCheck bs) &&
  ((info ++ media).all innerCheck &&
  (fitsCheck (mkvFine (lead ++ .part (.enter segmentId seg) :: (info ++ media))) &&
  (lead.all plainCheck && (info.all (fun t => plainCheck t || tracksCheck t) && (media.all mediaCheck &&
  (media.head?.all (fun t => decide (t.whole.id ∈ [clusterId, attachmentsId])) &&
  (decide (attachments none (mkvFine media) = l.map (fun x => (some x.1, x.2))) &&
  decide (l.Pairwise fun a b => a.1 ≠ b.1))))))))

theorem mkvCheck_ok {bs : List MkvBlock} {lead : List MkvTop} {seg : Bytes} {info media : List MkvTop} {l : List (Bytes × Bytes)}
    (hb : ∀ b ∈ bs, b.Ok) (h : mkvCheck bs lead seg info media l = true) : PlainMkv lead seg info media := by
  unfold mkvCheck at h
  simp only [Bool.and_eq_true, decide_eq_true_eq] at h
  obtain ⟨h1, h2, h3, h4, h5, h6, h7, h8, h9⟩ := h
  rw [List.all_eq_true] at h1 h2 h4 h5 h6
  exact
    { ok := fun p hp => partCheck_ok hb (h1 p hp)
      inner := fun id size inner hm => by simpa [innerCheck] using h2 _ hm
      fits := fitsCheck_ok h3
      leads := fun t ht => plainCheck_ok (h4 t ht)
      infos := fun t ht => by
        rcases Bool.or_eq_true_iff.1 (h5 t ht) with h | h
        · exact Or.inl (plainCheck_ok h)
        · exact Or.inr (tracksCheck_ok h)
      medias := fun t ht => mediaCheck_ok (h6 t ht)
      first := fun t ht => by rw [ht] at h7; simpa using h7
      names := ⟨l, h8, h9⟩ }

/-- The size of something below 127 bytes. -/
def shortSize (n : Nat) : Bytes := [UInt8.ofNat (128 + n)]
/-- An element without others in it. -/
def leafOf (id data : Bytes) : MkvPart := .leaf id (shortSize data.length) data
/-- An element with others in it. -/
def nestOf (id : Bytes) (inner : List MkvPart) : List MkvPart := .enter id (shortSize (mkvBytes inner).length) :: inner
def masterOf (id : Bytes) (inner : List MkvPart) : MkvTop := .master id (shortSize (mkvBytes inner).length) inner
/-- A block with a track number below 127. -/
def blockOf (id : Bytes) (track : Nat) (flags : UInt8) (lace : Bytes) (frames : List Bytes) : MkvPart :=
  .block ⟨id, shortSize (1 + 2 + 1 + lace.length + frames.flatten.length), track, shortSize track, [0, 7], flags, lace, frames⟩

/-- A description of a track, with the bytes that are stripped from its frames if there are any. -/
def trackOf (n : UInt8) (strip : Option Bytes) : List MkvPart :=
  nestOf trackEntryId ([leafOf trackNumberId [n], leafOf codecId [86, 95]] ++ match strip with
    | none => []
    | some b => nestOf encodingsId (nestOf encodingId (nestOf compressionId [leafOf compAlgoId [3], leafOf compSettingsId b])))

namespace MkvExample

def lead : List MkvTop := [.part (leafOf [0x1A, 0x45, 0xDF, 0xA3] [0x42, 0x86, 0x81, 1])]
/-- A segment of unknown size. -/
def seg : Bytes := [0x01, 0xFF, 0xFF, 0xFF, 0xFF, 0xFF, 0xFF, 0xFF]
def info : List MkvTop := [.part (leafOf [0x15, 0x49, 0xA9, 0x66] [1, 2]), masterOf tracksId (trackOf 1 (some [9, 8]) ++ trackOf 2 none)]
def xiph : MkvBlock := ⟨[0xA3], shortSize 10, 1, shortSize 1, [0, 7], 2, [1, 2], [[11, 12], [13, 14]]⟩
def single : MkvBlock := ⟨[0xA1], shortSize 7, 2, shortSize 2, [0, 7], 0, [], [[21, 22, 23]]⟩
def fixed : MkvBlock := ⟨[0xA3], shortSize 7, 1, shortSize 1, [0, 8], 4, [1], [[15], [16]]⟩
def media : List MkvTop :=
  (nestOf attachmentsId (nestOf attachedFileId [leafOf fileNameId [97], leafOf fileDataId [1, 2, 3]] ++
    nestOf attachedFileId [leafOf fileNameId [98], leafOf fileDataId [4]])).map .part ++
  [masterOf clusterId ([leafOf [0xE7] [5], .block xiph] ++ nestOf blockGroupId [.block single, leafOf [0xFB] [1]] ++ [.block fixed])]
def tops : List MkvTop := lead ++ .part (.enter segmentId seg) :: (info ++ media)
def file : Bytes := mkvFile tops

end MkvExample

theorem xiph_ok : MkvExample.xiph.Ok where
  id := by decide
  track := by decide
  time := rfl
  lace := ⟨.xiph, rfl, by unfold Laced; decide, by simp⟩
  size := by decide

theorem single_ok : MkvExample.single.Ok where
  id := by decide
  track := by decide
  time := rfl
  lace := ⟨.none, rfl, by unfold Laced; decide, by simp⟩
  size := by decide

theorem fixed_ok : MkvExample.fixed.Ok where
  id := by decide
  track := by decide
  time := rfl
  lace := ⟨.fixed, rfl, ⟨by decide, by decide, ⟨1, by decide⟩, rfl⟩, fun _ => by decide⟩
  size := by decide

set_option maxRecDepth 100000 in
/-- The file has two tracks, one with stripped headers, lacing, attachments and a segment of unknown
size. -/
theorem example_mkv : PlainMkv MkvExample.lead MkvExample.seg MkvExample.info MkvExample.media :=
  mkvCheck_ok (bs := [MkvExample.xiph, MkvExample.single, MkvExample.fixed]) (l := [([97], [1, 2, 3]), ([98], [4])])
    (by
      intro b hb
      simp only [List.mem_cons, List.not_mem_nil, or_false] at hb
      rcases hb with rfl | rfl | rfl
      · exact xiph_ok
      · exact single_ok
      · exact fixed_ok) (by decide +kernel)

set_option maxRecDepth 100000 in
/-- An SRS of it is created. -/
example : ∃ srs, srsMkvCreate [97] [98] MkvExample.file false none = .ok srs := by
  have h : (match srsMkvCreate [97] [98] MkvExample.file false none with
    | .ok _ => true
    | .error _ => false) = true := by decide +kernel
  split at h
  · rename_i srs e
    exact ⟨srs, e⟩
  · simp at h

end Rescene.Props
