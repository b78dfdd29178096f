import Verif.Lemmas.MkvLoad
/-
The parts of a plain MKV sample, as they are seen by the different loops.
-/
namespace Rescene
open Spec

/-- As creation and rebuilding see it: the description of the tracks is one element. -/
def Spec.MkvTop.coarse : MkvTop → List MkvPart
  | .part p => [p]
  | .master id size inner => if id = tracksId then [.leaf id size (mkvBytes inner)] else .enter id size :: inner

def mkvCoarse (tops : List MkvTop) : List MkvPart := tops.flatMap MkvTop.coarse

theorem coarse_bytes (tops : List MkvTop) : mkvBytes (mkvCoarse tops) = mkvBytes (mkvFine tops) := by
  induction tops with
  | nil => rfl
  | cons t tops ih =>
    rw [mkvCoarse, mkvFine, List.flatMap_cons, List.flatMap_cons, mkvBytes_append, mkvBytes_append,
      show List.flatMap MkvTop.coarse tops = mkvCoarse tops from rfl, show List.flatMap MkvTop.fine tops = mkvFine tops from rfl, ih]
    congr 1
    cases t with
    | part p => rfl
    | master id size inner =>
      rw [MkvTop.coarse, MkvTop.fine]
      split
      · simp [mkvBytes, MkvPart.bytes, MkvPart.head, MkvPart.data]
      · rfl

theorem mkvFine_append (a b : List MkvTop) : mkvFine (a ++ b) = mkvFine a ++ mkvFine b := by simp [mkvFine]

theorem mkvFine_cons (t : MkvTop) (a : List MkvTop) : mkvFine (t :: a) = t.fine ++ mkvFine a := by simp [mkvFine]

theorem mkvCoarse_append (a b : List MkvTop) : mkvCoarse (a ++ b) = mkvCoarse a ++ mkvCoarse b := by simp [mkvCoarse]

/-- A plain part, of the lead or the information. -/
def CalmPart (p : MkvPart) : Prop := match p with
  | .enter .. => True
  | .leaf id _ _ => id ≠ fileNameId ∧ id ≠ fileDataId
  | .block _ => False

theorem attachments_calm {a : List MkvPart} (h : ∀ p ∈ a, CalmPart p) (name : Option Bytes) (b : List MkvPart) :
    attachments name (a ++ b) = attachments name b := by
  induction a with
  | nil => rfl
  | cons p a ih =>
    have := ih fun q hq => h q (by simp [hq])
    have hp := h p (by simp)
    cases p with
    | enter => exact this
    | leaf id size data =>
      rw [List.cons_append, attachments, if_neg hp.1, if_neg hp.2]
      exact this
    | block b => exact hp.elim

theorem trackData_calm {a : List MkvPart} (h : ∀ p ∈ a, CalmPart p) (n : Nat) : mkvTrackData a n = [] := by
  induction a with
  | nil => rfl
  | cons p a ih =>
    have := ih fun q hq => h q (by simp [hq])
    have hp := h p (by simp)
    unfold mkvTrackData at this ⊢
    rw [List.flatMap_cons, this]
    cases p with
    | enter => rfl
    | leaf => rfl
    | block b => exact hp.elim

theorem inCluster_parts {p : MkvPart} (hp : InCluster p) :
    ProfPart p ∧ KeptPart p ∧ (∀ s, stripStep s p = s) ∧ (p.Ok → p.id ≠ segmentId) := by
  rcases hp with ⟨size, rfl⟩ | ⟨id, size, data, rfl, hid⟩ | ⟨b, rfl⟩
  · exact ⟨by show blockGroupId ∈ childIds; decide, by show blockGroupId ∈ mediaIds; decide, fun _ => rfl, fun _ => by show blockGroupId ≠ segmentId; decide⟩
  · obtain ⟨h1, h2, h3, h4, h5, h6, h7, h8, h9, h10⟩ := plain_ids hid
    have hsub : ∀ x ∈ [trackNumberId, compAlgoId, compSettingsId], x ∈ loadReadIds := by decide
    refine ⟨⟨h9, fun hm => absurd hm fun hm => ?_⟩, ⟨h5, h6⟩, fun s => stripStep_other s fun hm => h2 (hsub id hm), fun _ => h10⟩
    have hsub : ∀ x ∈ [trackNumberId, compAlgoId], x ∈ loadReadIds := by decide
    exact h2 (hsub id hm)
  · refine ⟨trivial, trivial, fun _ => rfl, fun h e => ?_⟩
    have := (block_not_media (b := b) h).1
    rw [show b.id = segmentId from e] at this
    revert this; decide

theorem media_parts {t : MkvTop} (ht : IsMedia t) :
    t.coarse = t.fine ∧ ∀ p ∈ t.fine, ProfPart p ∧ KeptPart p ∧ (∀ s, stripStep s p = s) ∧ (p.Ok → p.id ≠ segmentId) := by
  rcases ht with ⟨size, inner, rfl, hin⟩ | ⟨size, rfl⟩ | ⟨id, size, rfl, hid⟩ | ⟨id, size, data, rfl, hid⟩ | ⟨p, rfl, hp⟩
  · refine ⟨by rw [MkvTop.coarse, if_neg (by decide)]; rfl, ?_⟩
    intro p hp
    rcases List.mem_cons.1 hp with rfl | hp
    · exact ⟨by show clusterId ∈ childIds; decide, by show clusterId ∈ mediaIds; decide, fun _ => rfl, fun _ => by show clusterId ≠ segmentId; decide⟩
    · exact inCluster_parts (hin p hp)
  · refine ⟨rfl, ?_⟩
    intro p hp
    rw [List.mem_singleton.1 hp]
    exact ⟨by show clusterId ∈ childIds; decide, by show clusterId ∈ mediaIds; decide, fun _ => rfl, fun _ => by show clusterId ≠ segmentId; decide⟩
  · refine ⟨rfl, ?_⟩
    intro p hp
    rw [List.mem_singleton.1 hp]
    have : ∀ x ∈ [attachmentsId, attachedFileId], x ∈ childIds ∧ x ∈ mediaIds ∧ x ≠ segmentId := by decide
    obtain ⟨h1, h2, h3⟩ := this id hid
    exact ⟨h1, h2, fun _ => rfl, fun _ => h3⟩
  · refine ⟨rfl, ?_⟩
    intro p hp
    rw [List.mem_singleton.1 hp]
    have : ∀ x ∈ [fileNameId, fileDataId], x ∉ childIds ∧ x ∉ [trackNumberId, compAlgoId] ∧ x ∉ mediaIds ∧ x ∉ ownIds ∧
      x ∉ [trackNumberId, compAlgoId, compSettingsId] ∧ x ≠ segmentId := by decide
    obtain ⟨h1, h2, h3, h4, h5, h6⟩ := this id hid
    exact ⟨⟨h1, fun h => absurd h h2⟩, ⟨h3, h4⟩, fun s => stripStep_other s h5, fun _ => h6⟩
  · refine ⟨rfl, ?_⟩
    intro q hq
    rw [List.mem_singleton.1 hq]
    exact inCluster_parts hp

theorem lead_parts {t : MkvTop} (ht : PlainLeaf t) :
    t.coarse = t.fine ∧ ∀ p ∈ t.fine, ProfPart p ∧ KeptPart p ∧ (∀ s, stripStep s p = s) ∧ p.id ≠ segmentId ∧ CalmPart p ∧
      kept p = (p, true) ∧ InfoPart p ∧ ∃ id size data, p = .leaf id size data ∧ id ∉ specialIds := by
  obtain ⟨id, size, data, rfl, hid⟩ := ht
  refine ⟨rfl, ?_⟩
  intro p hp
  rw [List.mem_singleton.1 hp]
  obtain ⟨h1, h2, h3, h4, h5, h6, h7, h8, h9, h10⟩ := plain_ids hid
  have hsub : ∀ x ∈ [trackNumberId, compAlgoId, compSettingsId], x ∈ loadReadIds := by decide
  have hsub' : ∀ x ∈ [trackNumberId, compAlgoId], x ∈ loadReadIds := by decide
  exact ⟨⟨h9, fun hm => absurd (hsub' id hm) h2⟩, ⟨h5, h6⟩, fun s => stripStep_other s fun hm => h2 (hsub id hm), h10, ⟨h8, h7⟩,
    by simp [kept, h7], Or.inl hid, id, size, data, rfl, hid⟩

theorem tracks_parts {t : MkvTop} (ht : IsTracks t) (hok : ∀ p ∈ t.fine, p.Ok)
    (hin : ∀ id size inner, t = .master id size inner → IsVint size.length (mkvBytes inner).length size) :
    (∀ p ∈ t.coarse, p.Ok ∧ KeptPart p ∧ p.id ≠ segmentId ∧ CalmPart p ∧ kept p = (p, true)) ∧
    ∀ p ∈ t.fine, ProfPart p ∧ InfoPart p ∧ CalmPart p := by
  obtain ⟨size, inner, rfl, hi⟩ := ht
  constructor
  · intro p hp
    rw [MkvTop.coarse, if_pos rfl] at hp
    rw [List.mem_singleton.1 hp]
    have h0 := hok (.enter tracksId size) (by simp [MkvTop.fine])
    exact ⟨⟨h0.1, h0.2.1, hin _ _ _ rfl⟩, ⟨by show tracksId ∉ mediaIds; decide, by show tracksId ∉ ownIds; decide⟩,
      by show tracksId ≠ segmentId; decide, ⟨by show tracksId ≠ fileNameId; decide, by show tracksId ≠ fileDataId; decide⟩,
      by simp [kept]; decide⟩
  · intro p hp
    rcases List.mem_cons.1 hp with rfl | hp
    · exact ⟨by show tracksId ∈ childIds; decide, by show tracksId ∈ _; decide, trivial⟩
    · rcases hi p hp with ⟨id, sz, rfl, hid⟩ | ⟨id, sz, data, rfl, hid⟩
      · have : ∀ x ∈ [trackEntryId, encodingsId, encodingId, compressionId], x ∈ childIds ∧ x ∈ [tracksId, trackEntryId, encodingsId, encodingId, compressionId] := by decide
        exact ⟨(this id hid).1, (this id hid).2, trivial⟩
      · refine ⟨?_, hid, ?_⟩
        · rcases hid with h | h | ⟨h, hu⟩
          · exact ((lead_parts (t := .part (.leaf id sz data)) ⟨id, sz, data, rfl, h⟩).2 _ (by simp [MkvTop.fine])).1
          · have : ∀ x ∈ [codecId, compSettingsId], x ∉ childIds ∧ x ∉ [trackNumberId, compAlgoId] := by decide
            exact ⟨(this id h).1, fun hm => absurd hm (this id h).2⟩
          · have : ∀ x ∈ [trackNumberId, compAlgoId], x ∉ childIds := by decide
            exact ⟨this id h, fun _ => hu⟩
        · rcases hid with h | h | ⟨h, hu⟩
          · obtain ⟨_, _, _, _, _, _, h7, h8, _⟩ := plain_ids h
            exact ⟨h8, h7⟩
          · have : ∀ x ∈ [codecId, compSettingsId], x ≠ fileNameId ∧ x ≠ fileDataId := by decide
            exact this id h
          · have : ∀ x ∈ [trackNumberId, compAlgoId], x ≠ fileNameId ∧ x ≠ fileDataId := by decide
            exact this id h

/-- Everything about the parts of a plain sample. -/
structure MkvShape (lead : List MkvTop) (seg : Bytes) (info media : List MkvTop) : Prop where
  segOk : MkvPart.Ok (.enter segmentId seg)
  prof : ∀ p ∈ mkvFine (lead ++ .part (.enter segmentId seg) :: (info ++ media)), p.Ok ∧ ProfPart p
  leadKept : ∀ p ∈ mkvCoarse lead, p.Ok ∧ KeptPart p ∧ p.id ≠ segmentId
  restKept : ∀ p ∈ mkvCoarse (info ++ media), p.Ok ∧ KeptPart p ∧ p.id ≠ segmentId
  leadLoad : ∀ p ∈ mkvFine lead, p.Ok ∧ ∃ id size data, p = .leaf id size data ∧ id ∉ specialIds
  infoLoad : ∀ p ∈ mkvFine info, p.Ok ∧ InfoPart p
  leadBytes : mkvItemsBytes ((mkvCoarse lead).map kept) = mkvBytes (mkvFine lead)
  infoBytes : mkvItemsBytes ((mkvCoarse info).map kept) = mkvBytes (mkvFine info)
  mediaSame : mkvCoarse media = mkvFine media
  calm : ∀ p ∈ mkvCoarse (lead ++ .part (.enter segmentId seg) :: info), CalmPart p
  calmFine : ∀ p ∈ mkvFine (lead ++ .part (.enter segmentId seg) :: info), CalmPart p
  strips : ∀ n, strippedHeader (mkvFine (lead ++ .part (.enter segmentId seg) :: (info ++ media))) n = strippedHeader (mkvFine info) n

theorem kept_bytes {a : List MkvPart} (h : ∀ p ∈ a, kept p = (p, true)) : mkvItemsBytes (a.map kept) = mkvBytes a := by
  rw [← itemsBytes_all]
  congr 1
  exact List.map_congr_left h

theorem strip_none {a : List MkvPart} (h : ∀ p ∈ a, ∀ s, stripStep s p = s) (s : StripState) : a.foldl stripStep s = s := by
  induction a generalizing s with
  | nil => rfl
  | cons p a ih => rw [List.foldl_cons, h p (by simp), ih fun q hq => h q (by simp [hq])]

theorem plainMkv_shape {lead info media : List MkvTop} {seg : Bytes} (h : PlainMkv lead seg info media) : MkvShape lead seg info media := by
  have hok := h.ok
  have hfine : mkvFine (lead ++ .part (.enter segmentId seg) :: (info ++ media)) =
      mkvFine lead ++ (.enter segmentId seg :: (mkvFine info ++ mkvFine media)) := by
    rw [mkvFine_append, mkvFine_cons, mkvFine_append]; rfl
  have hokL : ∀ t ∈ lead, ∀ p ∈ t.fine, p.Ok := fun t ht p hp => hok p (by
    rw [hfine]; exact List.mem_append_left _ (List.mem_flatMap.2 ⟨t, ht, hp⟩))
  have hokI : ∀ t ∈ info, ∀ p ∈ t.fine, p.Ok := fun t ht p hp => hok p (by
    rw [hfine]; exact List.mem_append_right _ (List.mem_cons_of_mem _ (List.mem_append_left _ (List.mem_flatMap.2 ⟨t, ht, hp⟩))))
  have hokM : ∀ t ∈ media, ∀ p ∈ t.fine, p.Ok := fun t ht p hp => hok p (by
    rw [hfine]; exact List.mem_append_right _ (List.mem_cons_of_mem _ (List.mem_append_right _ (List.mem_flatMap.2 ⟨t, ht, hp⟩))))
  have hseg : MkvPart.Ok (.enter segmentId seg) := hok _ (by rw [hfine]; simp)
  have hinner : ∀ t ∈ info, ∀ id size inner, t = .master id size inner → IsVint size.length (mkvBytes inner).length size := by
    rintro t ht id size inner rfl
    exact h.inner id size inner (by simp [ht])
  have hmedia : mkvCoarse media = mkvFine media := by
    unfold mkvCoarse mkvFine
    have hm := h.medias
    clear hok hfine hokL hokI hokM hinner h
    induction media with
    | nil => rfl
    | cons t media ih =>
      rw [List.flatMap_cons, List.flatMap_cons, (media_parts (hm t (by simp))).1, ih fun q hq => hm q (by simp [hq])]
  have hlead : mkvCoarse lead = mkvFine lead := by
    unfold mkvCoarse mkvFine
    have hm := h.leads
    clear hok hfine hokL hokI hokM hinner h
    induction lead with
    | nil => rfl
    | cons t media ih =>
      rw [List.flatMap_cons, List.flatMap_cons, (lead_parts (hm t (by simp))).1, ih fun q hq => hm q (by simp [hq])]
  have hmp : ∀ p ∈ mkvFine media, p.Ok ∧ ProfPart p ∧ KeptPart p ∧ (∀ s, stripStep s p = s) ∧ p.id ≠ segmentId := by
    intro p hp
    obtain ⟨t, ht, hp⟩ := List.mem_flatMap.1 hp
    obtain ⟨h1, h2, h3, h4⟩ := (media_parts (h.medias t ht)).2 p hp
    have := hokM t ht p hp
    exact ⟨this, h1, h2, h3, h4 this⟩
  have hlp : ∀ p ∈ mkvFine lead, p.Ok ∧ ProfPart p ∧ KeptPart p ∧ (∀ s, stripStep s p = s) ∧ p.id ≠ segmentId ∧ CalmPart p ∧
      kept p = (p, true) ∧ InfoPart p ∧ ∃ id size data, p = .leaf id size data ∧ id ∉ specialIds := by
    intro p hp
    obtain ⟨t, ht, hp⟩ := List.mem_flatMap.1 hp
    exact ⟨hokL t ht p hp, (lead_parts (h.leads t ht)).2 p hp⟩
  have hif : ∀ p ∈ mkvFine info, p.Ok ∧ ProfPart p ∧ InfoPart p ∧ CalmPart p := by
    intro p hp
    obtain ⟨t, ht, hp⟩ := List.mem_flatMap.1 hp
    refine ⟨hokI t ht p hp, ?_⟩
    rcases h.infos t ht with hl | hl
    · obtain ⟨h1, _, _, _, h5, _, h7, _⟩ := (lead_parts hl).2 p hp
      exact ⟨h1, h7, h5⟩
    · exact (tracks_parts hl (hokI t ht) (hinner t ht)).2 p hp
  have hic : ∀ p ∈ mkvCoarse info, p.Ok ∧ KeptPart p ∧ p.id ≠ segmentId ∧ CalmPart p ∧ kept p = (p, true) := by
    intro p hp
    obtain ⟨t, ht, hp⟩ := List.mem_flatMap.1 hp
    rcases h.infos t ht with hl | hl
    · rw [(lead_parts hl).1] at hp
      obtain ⟨_, h2, _, h4, h5, h6, _⟩ := (lead_parts hl).2 p hp
      exact ⟨hokI t ht p hp, h2, h4, h5, h6⟩
    · exact (tracks_parts hl (hokI t ht) (hinner t ht)).1 p hp
  constructor
  · exact hseg
  · rw [hfine]
    intro p hp
    rcases List.mem_append.1 hp with hp | hp
    · exact ⟨(hlp p hp).1, (hlp p hp).2.1⟩
    · rcases List.mem_cons.1 hp with rfl | hp
      · exact ⟨hseg, by show segmentId ∈ childIds; decide⟩
      · rcases List.mem_append.1 hp with hp | hp
        · exact ⟨(hif p hp).1, (hif p hp).2.1⟩
        · exact ⟨(hmp p hp).1, (hmp p hp).2.1⟩
  · rw [hlead]
    intro p hp
    obtain ⟨h1, _, h3, _, h5, _⟩ := hlp p hp
    exact ⟨h1, h3, h5⟩
  · rw [mkvCoarse_append, hmedia]
    intro p hp
    rcases List.mem_append.1 hp with hp | hp
    · obtain ⟨h1, h2, h3, _⟩ := hic p hp
      exact ⟨h1, h2, h3⟩
    · obtain ⟨h1, _, h3, _, h5⟩ := hmp p hp
      exact ⟨h1, h3, h5⟩
  · intro p hp
    obtain ⟨h1, _, _, _, _, _, _, _, h9⟩ := hlp p hp
    exact ⟨h1, h9⟩
  · exact fun p hp => ⟨(hif p hp).1, (hif p hp).2.2.1⟩
  · rw [hlead]
    exact kept_bytes fun p hp => by
      obtain ⟨_, _, _, _, _, _, h7, _⟩ := hlp p hp
      exact h7
  · rw [← coarse_bytes]
    exact kept_bytes fun p hp => (hic p hp).2.2.2.2
  · exact hmedia
  · intro p hp
    rw [mkvCoarse_append] at hp
    rcases List.mem_append.1 hp with hp | hp
    · rw [hlead] at hp
      obtain ⟨_, _, _, _, _, h6, _⟩ := hlp p hp
      exact h6
    · rw [mkvCoarse, List.flatMap_cons] at hp
      rcases List.mem_append.1 hp with hp | hp
      · rw [List.mem_singleton.1 hp]; trivial
      · exact (hic p hp).2.2.2.1
  · intro p hp
    rw [mkvFine_append, mkvFine_cons] at hp
    rcases List.mem_append.1 hp with hp | hp
    · obtain ⟨_, _, _, _, _, h6, _⟩ := hlp p hp
      exact h6
    · rcases List.mem_append.1 hp with hp | hp
      · rw [List.mem_singleton.1 hp]; trivial
      · exact (hif p hp).2.2.2
  · intro n
    unfold strippedHeader
    rw [hfine, List.foldl_append, strip_none fun p hp => (hlp p hp).2.2.2.1, List.foldl_cons, List.foldl_append,
      strip_none fun p hp => (hmp p hp).2.2.2.1]
    rfl

end Rescene
