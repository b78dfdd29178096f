import Verif.Lemmas.MkvProfile
import Verif.Props.SrsData
/-
Creating, loading and rebuilding on the parts of MKV samples.
-/
namespace Rescene
open Spec

/-! ### Parts as creation and rebuilding see them -/

def mediaIds : List Bytes := [segmentId, clusterId, blockGroupId, attachmentsId, attachedFileId]

def KeptPart : MkvPart → Prop
  | .enter id _ => id ∈ mediaIds
  | .leaf id _ _ => id ∉ mediaIds ∧ id ∉ ownIds
  | .block _ => True

/-- What is in the SRS of a part. -/
def kept (p : MkvPart) : MkvItem := (p, match p with
  | .enter .. => true
  | .leaf id _ _ => decide (id ≠ fileDataId)
  | .block _ => false)

theorem block_not_media {b : MkvBlock} (h : b.Ok) : b.id ∉ mediaIds ∧ b.id ∉ ownIds ∧ b.id ≠ fileDataId := by
  have := h.id
  simp only [blockIds, List.mem_cons, List.not_mem_nil, or_false] at this
  rcases this with e | e <;> rw [e] <;> decide

/-! ### Creating -/

theorem mkvCreateHow_eq (o : Bytes) (e : EbmlElem) : mkvCreateHow o e =
    if e.id ∈ mediaIds then .child else if e.id = fileDataId ∨ e.block.isSome = true then .skip else .read := by
  unfold mkvCreateHow
  simp only [mediaIds, List.mem_cons, List.not_mem_nil, or_false]
  rfl

theorem mkvCreate_suits {p : MkvPart} (h : p.Ok) (hp : KeptPart p) (s : Bytes) (pos : Nat) :
    EbmlSuits .mkv (mkvCreateHow s (p.elem pos)) (p, true) := by
  rw [mkvCreateHow_eq]
  cases p with
  | enter id size => rw [if_pos (show (MkvPart.elem pos (.enter id size)).id ∈ mediaIds from hp)]; exact Or.inr rfl
  | leaf id size data =>
    rw [if_neg (show (MkvPart.elem pos (.leaf id size data)).id ∉ mediaIds from hp.1)]
    split
    · exact Or.inl ⟨rfl, by simp, by simp⟩
    · exact ⟨rfl, by simp, by simp⟩
  | block b =>
    rw [if_neg (show (MkvPart.elem pos (.block b)).id ∉ mediaIds from (block_not_media h).1), if_pos (by exact Or.inr rfl)]
    exact Or.inl ⟨rfl, by simp, by simp⟩

theorem createItem_plain {own : Res Bytes} {out data : Bytes} {e : EbmlElem} (hb : e.block = none) (hs : e.id ≠ eSegment) :
    mkvCreateItem own out e data = .ok (out ++ e.header ++ data, false) := by
  unfold mkvCreateItem
  rw [hb]
  dsimp only
  rw [if_neg hs]

theorem mkvCreate_part {own : Res Bytes} {p : MkvPart} (h : p.Ok) (hp : KeptPart p) (hs : p.id ≠ segmentId) (out : Bytes) (pos : Nat) :
    mkvCreateItem own out (p.elem pos) (ebmlSeen (mkvCreateHow out (p.elem pos)) p) = .ok (out ++ (kept p).bytes, false) := by
  cases p with
  | enter id size =>
    rw [createItem_plain (e := MkvPart.elem pos (.enter id size)) rfl hs]
    simp [ebmlSeen, kept, MkvItem.bytes, MkvPart.head, MkvPart.data, MkvPart.elem]
  | leaf id size data =>
    rw [createItem_plain (e := MkvPart.elem pos (.leaf id size data)) rfl hs, mkvCreateHow_eq,
      if_neg (show (MkvPart.elem pos (.leaf id size data)).id ∉ mediaIds from hp.1)]
    by_cases hd : id = fileDataId
    · rw [if_pos (show (MkvPart.elem pos (.leaf id size data)).id = fileDataId ∨ _ from Or.inl hd)]
      simp [ebmlSeen, kept, MkvItem.bytes, MkvPart.head, hd, MkvPart.elem]
    · rw [if_neg (show ¬ ((MkvPart.elem pos (.leaf id size data)).id = fileDataId ∨ (MkvPart.elem pos (.leaf id size data)).block.isSome = true) from by
        rintro (h | h)
        · exact hd h
        · simp [MkvPart.elem] at h)]
      simp [ebmlSeen, kept, MkvItem.bytes, MkvPart.head, MkvPart.data, hd, MkvPart.elem]
  | block b =>
    unfold mkvCreateItem
    dsimp only [MkvPart.elem]
    simp [kept, MkvItem.bytes, MkvPart.head, MkvBlock.info]

theorem mkvCreate_fold {own : Res Bytes} {a rest : List MkvPart} (h : ∀ p ∈ a, p.Ok ∧ KeptPart p ∧ p.id ≠ segmentId) : ∀ (pos : Nat) (out : Bytes),
    ∃ pos', mkvFold mkvCreateHow (mkvCreateItem own) ((a ++ rest).map fun p => (p, true)) pos out =
      mkvFold mkvCreateHow (mkvCreateItem own) (rest.map fun p => (p, true)) pos' (out ++ mkvItemsBytes (a.map kept)) := by
  induction a with
  | nil => intro pos out; exact ⟨pos, by simp [mkvItemsBytes]⟩
  | cons p a ih =>
    intro pos out
    obtain ⟨h1, h2, h3⟩ := h p (by simp)
    rw [List.cons_append, List.map_cons, mkvFold]
    dsimp only
    rw [mkvCreate_part h1 h2 h3, ok_bind]
    dsimp only
    rw [if_neg (by simp)]
    obtain ⟨pos', h'⟩ := ih (fun q hq => h q (by simp [hq])) (pos + (MkvItem.bytes (p, true)).length) (out ++ (kept p).bytes)
    refine ⟨pos', ?_⟩
    rw [List.map_cons, mkvItemsBytes_cons, ← List.append_assoc]
    exact h'

/-- The bytes of the SRS. -/
theorem mkvCreate_ok {own : Res Bytes} {a b : List MkvPart} {seg srs : Bytes} (hs : MkvPart.Ok (.enter segmentId seg))
    (ha : ∀ p ∈ a, p.Ok ∧ KeptPart p ∧ p.id ≠ segmentId) (hb : ∀ p ∈ b, p.Ok ∧ KeptPart p ∧ p.id ≠ segmentId)
    (h : mkvWalk .mkv true mkvCreateHow (mkvBytes (a ++ .enter segmentId seg :: b)) (mkvCreateItem own) [] = .ok srs) :
    ∃ o, own = .ok o ∧ srs = mkvItemsBytes (a.map kept) ++ ((segmentId ++ seg) ++ (o ++ mkvItemsBytes (b.map kept))) := by
  have hall : ∀ p ∈ a ++ .enter segmentId seg :: b, p.Ok ∧ KeptPart p := by
    intro p hp
    rcases List.mem_append.1 hp with hp | hp
    · exact ⟨(ha p hp).1, (ha p hp).2.1⟩
    · rcases List.mem_cons.1 hp with hp | hp
      · subst hp; exact ⟨hs, by show segmentId ∈ mediaIds; decide⟩
      · exact ⟨(hb p hp).1, (hb p hp).2.1⟩
  rw [← itemsBytes_all, mkvWalk_items] at h
  · obtain ⟨pos', h'⟩ := mkvCreate_fold (own := own) (rest := .enter segmentId seg :: b) ha 0 []
    rw [h', List.map_cons, mkvFold] at h
    dsimp only at h
    have hitem : ∀ out pos, mkvCreateItem own out (MkvPart.elem pos (.enter segmentId seg))
        (ebmlSeen (mkvCreateHow out (MkvPart.elem pos (.enter segmentId seg))) (.enter segmentId seg)) =
        (do let o ← own; return (out ++ (segmentId ++ seg) ++ o, false)) := by
      intro out pos
      unfold mkvCreateItem
      exact if_pos rfl
    rw [hitem] at h
    cases own with
    | error e => simp at h
    | ok o =>
      refine ⟨o, rfl, ?_⟩
      rw [ok_bind, pure_eq_ok, ok_bind] at h
      dsimp only at h
      rw [if_neg (by simp)] at h
      obtain ⟨pos'', h''⟩ := mkvCreate_fold (own := .ok o) (rest := []) hb
        (pos' + (MkvItem.bytes (.enter segmentId seg, true)).length) ([] ++ mkvItemsBytes (a.map kept) ++ (segmentId ++ seg) ++ o)
      rw [List.append_nil] at h''
      rw [h'', List.map_nil, mkvFold] at h
      injection h with h
      rw [← h]
      simp
  · intro x hx
    obtain ⟨p, hpm, rfl⟩ := List.mem_map.1 hx
    exact (hall p hpm).1
  · intro x hx s pos
    obtain ⟨p, hpm, rfl⟩ := List.mem_map.1 hx
    exact mkvCreate_suits (hall p hpm).1 (hall p hpm).2 s pos
  · simp

/-! ### Our own elements -/

theorem mkvElement_ok {id data b : Bytes} (h : ebmlElement id data = .ok b) :
    ∃ n, IsVint n.length data.length n ∧ b = id ++ (n ++ data) := by
  unfold ebmlElement at h
  simp only [bind_eq_ok, pure_eq_ok, Except.ok.injEq] at h
  obtain ⟨n, hn, rfl⟩ := h
  obtain ⟨k, hv, _⟩ := makeEbmlUInt_vint hn
  have := vint_length hv
  subst this
  exact ⟨n, hv, rfl⟩

/-- A track as read back. -/
def loadTrack (big : Bool) (t : MkvTrack) : MkvTrack :=
  { flags := if big then t.flags ||| 4 else t.flags, number := t.number, len := t.len, offset := t.offset, sig := t.sig }

/-- The elements for tracks. -/
def OwnLeaves (big : Bool) : MkvTracks → List MkvPart → Prop
  | [], [] => True
  | (_, t) :: ts, p :: ps => (∃ size d td, p = .leaf eResampleTrack size d ∧ p.Ok ∧ trackParse d = .ok td ∧ td.number = t.number ∧
      ({ flags := td.flags, number := td.number, len := td.dataLength, offset := td.matchOffset, sig := td.sig } : MkvTrack) = loadTrack big t) ∧ OwnLeaves big ts ps
  | _, _ => False

theorem own_leaf_ok {id size d : Bytes} (h1 : IsNumber id) (h2 : id ∉ blockIds) (h3 : IsVint size.length d.length size) :
    MkvPart.Ok (.leaf id size d) := ⟨h1, h2, h3⟩

theorem ownNumber : IsNumber eResample ∧ IsNumber eResampleFile ∧ IsNumber eResampleTrack ∧ IsNumber segmentId := by
  refine ⟨?_, ?_, ?_, ?_⟩ <;> (unfold IsNumber IsVint; decide)

theorem ownTracks_ok {big : Bool} : ∀ {tracks : MkvTracks} {te : List Bytes},
    (∀ x ∈ tracks, x.1 = x.2.number ∧ x.2.number < 2 ^ 16 ∧ x.2.flags = 0) →
    (tracks.mapM fun (x : Nat × MkvTrack) => (do
      let t := if big then { x.2 with flags := x.2.flags ||| 4 } else x.2
      let d ← mkvTrackBytes t
      ebmlElement eResampleTrack d : Res Bytes)) = .ok te →
    ∃ ps, OwnLeaves big tracks ps ∧ te.flatten = mkvBytes ps := by
  intro tracks
  induction tracks with
  | nil =>
    intro te _ h
    rw [List.mapM_nil] at h
    injection h with h
    subst h
    exact ⟨[], trivial, rfl⟩
  | cons x tracks ih =>
    intro te hx h
    obtain ⟨n, t⟩ := x
    rw [List.mapM_cons] at h
    simp only [bind_eq_ok, pure_eq_ok, Except.ok.injEq] at h
    obtain ⟨b, ⟨d, hd, hb⟩, te', hte, rfl⟩ := h
    obtain ⟨h1, h2, h3⟩ := hx _ (List.mem_cons_self ..)
    dsimp only at h1 h2 h3
    obtain ⟨ps, hps, hpb⟩ := ih (fun y hy => hx y (by simp [hy])) hte
    obtain ⟨sz, hsz, rfl⟩ := mkvElement_ok hb
    refine ⟨.leaf eResampleTrack sz d :: ps, ⟨?_, hps⟩, ?_⟩
    · unfold mkvTrackBytes at hd
      have e : (if big = true then { t with flags := t.flags ||| 4 } else t) =
        { t with flags := if big then t.flags ||| 4 else t.flags } := by cases big <;> rfl
      rw [e] at hd
      dsimp only at hd
      split at hd
      · simp at hd
      · rename_i hlen
        have := Props.track_data_small_number _ (by dsimp only; exact h2) (by dsimp only; rw [h3]; cases big <;> simp) d [] hd
        rw [List.append_nil] at this
        refine ⟨sz, d, _, rfl, own_leaf_ok ownNumber.2.2.1 (by decide) hsz, this, rfl, ?_⟩
        unfold loadTrack
        dsimp only
        rw [Int.toNat_of_nonneg (by omega)]
    · rw [List.flatten_cons, hpb]
      simp [mkvBytes, MkvPart.bytes, MkvPart.head, MkvPart.data]

/-- What is written after the header of the segment. -/
theorem mkvOwn_ok {app name : Str} {size crc : Nat} {tracks : MkvTracks} {big : Bool} {o : Bytes}
    (hx : ∀ x ∈ tracks, x.1 = x.2.number ∧ x.2.number < 2 ^ 16 ∧ x.2.flags = 0)
    (h : mkvOwn app name size crc tracks big = .ok o) :
    ∃ sz szf f ps, o = eResample ++ (sz ++ mkvBytes (.leaf eResampleFile szf f :: ps)) ∧
      MkvPart.Ok (.leaf eResample sz (mkvBytes (.leaf eResampleFile szf f :: ps))) ∧
      MkvPart.Ok (.leaf eResampleFile szf f) ∧ OwnLeaves big tracks ps ∧
      fileParse f = .ok ⟨3, app, basename name, size, crc % 2 ^ 32⟩ := by
  unfold mkvOwn at h
  simp only [bind_eq_ok] at h
  obtain ⟨f, hf, fe, hfe, te, hte, h⟩ := h
  obtain ⟨szf, hszf, rfl⟩ := mkvElement_ok hfe
  obtain ⟨ps, hps, hpb⟩ := ownTracks_ok (big := big) hx hte
  obtain ⟨sz, hsz, rfl⟩ := mkvElement_ok h
  have e : eResampleFile ++ (szf ++ f) ++ te.flatten = mkvBytes (.leaf eResampleFile szf f :: ps) := by
    rw [hpb]
    simp [mkvBytes, MkvPart.bytes, MkvPart.head, MkvPart.data]
  rw [e] at hsz ⊢
  refine ⟨sz, szf, f, ps, rfl, own_leaf_ok ownNumber.1 (by decide) hsz, own_leaf_ok ownNumber.2.1 (by decide) hszf, hps, ?_⟩
  have := Props.file_data_round_trip hf []
  rwa [List.append_nil] at this

/-! ### Rebuilding -/

theorem mkvRebuildHow_eq (s : MkvRebuild) (e : EbmlElem) : mkvRebuildHow 3 s e =
    if e.id = eResample then .skip else if e.id ∈ mediaIds ∨ e.block.isSome = true ∨ e.id = fileDataId then .child else .read := by
  unfold mkvRebuildHow
  have hf : hasFlag 3 2 = true := by decide
  simp only [hf, if_true, mediaIds, List.mem_cons, List.not_mem_nil, or_false]
  split
  · rfl
  · split
    · rename_i h
      rw [if_pos]
      rcases h with h | h | h | h | h | h
      · exact Or.inl (Or.inl h)
      · exact Or.inl (Or.inr (Or.inr (Or.inr (Or.inl h))))
      · exact Or.inl (Or.inr (Or.inr (Or.inr (Or.inr h))))
      · exact Or.inl (Or.inr (Or.inr (Or.inl h)))
      · exact Or.inl (Or.inr (Or.inl h))
      · exact Or.inr (Or.inl h)
    · rename_i h
      split
      · rename_i hd
        rw [if_pos (show _ ∨ _ ∨ e.id = fileDataId from Or.inr (Or.inr hd))]
      · rename_i hd
        rw [if_neg]
        rintro ((h' | h' | h' | h' | h') | h' | h')
        · exact h (Or.inl h')
        · exact h (Or.inr (Or.inr (Or.inr (Or.inr (Or.inl h')))))
        · exact h (Or.inr (Or.inr (Or.inr (Or.inl h'))))
        · exact h (Or.inr (Or.inl h'))
        · exact h (Or.inr (Or.inr (Or.inl h')))
        · exact h (Or.inr (Or.inr (Or.inr (Or.inr (Or.inr h')))))
        · exact hd h'

theorem not_own {id : Bytes} (h : id ∉ ownIds) : id ≠ eResample := by
  rintro rfl
  exact h (by decide)

theorem media_not_resample {id : Bytes} (h : id ∈ mediaIds) : id ≠ eResample := by
  rintro rfl
  revert h; decide

theorem mkvRebuild_suits {p : MkvPart} (h : p.Ok) (hp : KeptPart p) (s : MkvRebuild) (pos : Nat) :
    EbmlSuits .srs (mkvRebuildHow 3 s (p.elem pos)) (kept p) := by
  rw [mkvRebuildHow_eq]
  cases p with
  | enter id size =>
    rw [if_neg (show ¬ (MkvPart.elem pos (.enter id size)).id = eResample from media_not_resample hp),
      if_pos (Or.inl (show (MkvPart.elem pos (.enter id size)).id ∈ mediaIds from hp))]
    exact Or.inr rfl
  | leaf id size data =>
    rw [if_neg (show ¬ (MkvPart.elem pos (.leaf id size data)).id = eResample from not_own hp.2)]
    by_cases hd : id = fileDataId
    · rw [if_pos (by exact Or.inr (Or.inr hd))]
      exact Or.inl (by simp [kept, hd])
    · rw [if_neg]
      · exact ⟨by simp [kept, hd], by simp [kept], by simp [kept]⟩
      · rintro (h' | h' | h')
        · exact hp.1 h'
        · simp [MkvPart.elem] at h'
        · exact hd h'
  | block b =>
    rw [if_neg (show ¬ (MkvPart.elem pos (.block b)).id = eResample from not_own (block_not_media h).2.1), if_pos (by exact Or.inr (Or.inl rfl))]
    exact Or.inl rfl

theorem attachGet_put (l : MkvAttach) (n m : Bytes) (d : Option Bytes) :
    attachGet (attachPut l n d) m = if m = n then some d else attachGet l m := by
  induction l with
  | nil =>
    unfold attachPut attachGet
    by_cases h : m = n
    · simp [h]
    · simp [h, show ¬ n = m from fun e => h e.symm]
  | cons y l ih =>
    obtain ⟨k, x⟩ := y
    rw [attachPut]
    by_cases hk : k = n
    · rw [if_pos hk]
      subst hk
      unfold attachGet
      by_cases h : m = k
      · simp [h]
      · simp [h, show (k == m) = false from beq_eq_false_iff_ne.mpr fun e => h e.symm]
    · rw [if_neg hk]
      unfold attachGet at ih ⊢
      by_cases h : k = m
      · have hmn : m ≠ n := by rw [← h]; exact hk
        simp [h, hmn]
      · simp only [List.find?_cons, beq_eq_false_iff_ne.mpr h]
        exact ih

/-- What is left to be written is there. -/
structure RebReady (ts : MkvTracks) (rest : List MkvPart) (s : MkvRebuild) : Prop where
  tracks : ∀ b, .block b ∈ rest → (movGet ts b.track).isSome = true ∧
    ∃ extra, s.files b.track = some (mkvTrackData rest b.track ++ extra)
  atts : ∃ l : List (Bytes × Bytes), attachments s.att rest = l.map (fun x => (some x.1, x.2)) ∧
    (l.Pairwise fun a b => a.1 ≠ b.1) ∧ ∀ x ∈ l, attachGet s.atts x.1 = some (some x.2)

theorem rebuildItem_plain {ts : MkvTracks} {s : MkvRebuild} {data : Bytes} {e : EbmlElem} (hb : e.block = none)
    (hr : e.id ≠ eResample) (hd : e.id ≠ eAttachData) :
    mkvRebuildItem ts s e data = .ok ({ s with out := s.out ++ e.header ++ data, crc := crc32 data (crc32 e.header s.crc), att := if e.id = eAttachName then some data else s.att }, false) := by
  unfold mkvRebuildItem
  rw [if_neg hr, hb]
  dsimp only
  rw [if_neg hd]

theorem rebuildItem_data {ts : MkvTracks} {s : MkvRebuild} {data n d : Bytes} {e : EbmlElem} (hb : e.block = none)
    (hd : e.id = eAttachData) (ha : s.att = some n) (hg : attachGet s.atts n = some (some d)) :
    mkvRebuildItem ts s e data = .ok ({ s with out := s.out ++ e.header ++ d, crc := crc32 d (crc32 e.header s.crc), atts := attachPut s.atts n (some []) }, false) := by
  unfold mkvRebuildItem
  rw [if_neg (by rw [hd]; decide), hb]
  dsimp only
  rw [if_pos hd, ha]
  dsimp only
  rw [hg]

theorem rebuildItem_block {ts : MkvTracks} {s : MkvRebuild} {data r : Bytes} {e : EbmlElem} {b : EbmlBlock} (hb : e.block = some b)
    (hr : e.id ≠ eResample) (ht : (movGet ts b.track).isSome = true) (hf : s.files b.track = some r) (hl : 0 ≤ e.length) :
    mkvRebuildItem ts s e data = .ok ({ s with
      out := s.out ++ e.header ++ b.head ++ r.take e.length.toNat
      crc := crc32 (r.take e.length.toNat) (crc32 b.head (crc32 e.header s.crc))
      files := s.files.set b.track (r.drop e.length.toNat) }, false) := by
  unfold mkvRebuildItem
  rw [if_neg hr, hb]
  dsimp only
  cases hg : movGet ts b.track with
  | none => rw [hg] at ht; simp at ht
  | some t =>
    dsimp only
    rw [hf]
    dsimp only
    rw [takeLength, if_pos hl, ok_bind]
    rfl

theorem mkvRebuild_part {ts : MkvTracks} {p : MkvPart} {rest : List MkvPart} {s : MkvRebuild} (h : p.Ok) (hp : KeptPart p)
    (hr : RebReady ts (p :: rest) s) (pos : Nat) :
    ∃ s', mkvRebuildItem ts s (p.elem pos) (ebmlSeen (mkvRebuildHow 3 s (p.elem pos)) p) = .ok (s', false) ∧
      s'.out = s.out ++ p.bytes ∧ s'.crc = crc32 p.bytes s.crc ∧ RebReady ts rest s' := by
  cases p with
  | enter id size =>
    have hid : id ∈ mediaIds := hp
    have hnd : id ≠ fileDataId := by rintro rfl; revert hid; decide
    have hnn : id ≠ fileNameId := by rintro rfl; revert hid; decide
    rw [rebuildItem_plain (e := MkvPart.elem pos (.enter id size)) rfl (media_not_resample hid) hnd,
      if_neg (show ¬ (MkvPart.elem pos (.enter id size)).id = eAttachName from hnn)]
    refine ⟨_, rfl, ?_, ?_, ?_, ?_⟩
    · simp [ebmlSeen, MkvPart.bytes, MkvPart.head, MkvPart.data, MkvPart.elem]
    · simp [ebmlSeen, MkvPart.bytes, MkvPart.head, MkvPart.data, crc32, MkvPart.elem]
    · intro b hb
      have := hr.tracks b (by simp [hb])
      simpa [mkvTrackData] using this
    · have := hr.atts
      simpa [attachments] using this
  | leaf id size data =>
    have htr : ∀ b, .block b ∈ rest → (movGet ts b.track).isSome = true ∧
        ∃ extra, s.files b.track = some (mkvTrackData rest b.track ++ extra) := by
      intro b hb
      have := hr.tracks b (by simp [hb])
      simpa [mkvTrackData] using this
    by_cases hd : id = fileDataId
    · subst hd
      obtain ⟨l, hl1, hl2, hl3⟩ := hr.atts
      rw [attachments, if_neg (by decide), if_pos rfl] at hl1
      cases l with
      | nil => simp at hl1
      | cons x l =>
        rw [List.map_cons] at hl1
        injection hl1 with hx hl1
        injection hx with hx1 hx2
        rw [rebuildItem_data (e := MkvPart.elem pos (.leaf fileDataId size data)) rfl rfl hx1 (hl3 x (by simp)), ← hx2]
        refine ⟨_, rfl, ?_, ?_, htr, ?_⟩
        · simp [MkvPart.bytes, MkvPart.head, MkvPart.data, MkvPart.elem]
        · dsimp only; rw [← crc32_append]; rfl
        · rw [List.pairwise_cons] at hl2
          refine ⟨l, by dsimp only; exact hl1, hl2.2, ?_⟩
          intro y hy
          dsimp only
          rw [attachGet_put, if_neg (fun e => hl2.1 y hy e.symm)]
          exact hl3 y (by simp [hy])
    · rw [mkvRebuildHow_eq, if_neg (show ¬ (MkvPart.elem pos (.leaf id size data)).id = eResample from not_own hp.2), if_neg (by
        rintro (h' | h' | h')
        · exact hp.1 h'
        · simp [MkvPart.elem] at h'
        · exact hd h'),
        rebuildItem_plain (e := MkvPart.elem pos (.leaf id size data)) rfl (not_own hp.2) hd]
      refine ⟨_, rfl, ?_, ?_, htr, ?_⟩
      · simp [ebmlSeen, MkvPart.bytes, MkvPart.head, MkvPart.data, MkvPart.elem]
      · simp only [ebmlSeen, if_true]; rw [← crc32_append]; rfl
      · obtain ⟨l, hl1, hl2, hl3⟩ := hr.atts
        refine ⟨l, ?_, hl2, hl3⟩
        rw [attachments] at hl1
        dsimp only [ebmlSeen]
        by_cases hn : id = fileNameId
        · rw [if_pos hn] at hl1
          rw [if_pos (show (MkvPart.elem pos (.leaf id size data)).id = eAttachName from hn), if_pos rfl]
          exact hl1
        · rw [if_neg hn, if_neg hd] at hl1
          rw [if_neg (show ¬ (MkvPart.elem pos (.leaf id size data)).id = eAttachName from hn)]
          exact hl1
  | block b =>
    obtain ⟨ht, extra, hfile⟩ := hr.tracks b (by simp)
    have hb : mkvTrackData (.block b :: rest) b.track = b.data ++ mkvTrackData rest b.track := by simp [mkvTrackData]
    rw [hb, List.append_assoc] at hfile
    rw [rebuildItem_block (e := MkvPart.elem pos (.block b)) (b := b.info) rfl (not_own (block_not_media h).2.1) ht hfile
      (show (0 : Int) ≤ b.data.length by omega)]
    rw [show (MkvPart.elem pos (.block b)).length.toNat = b.data.length from by simp [MkvPart.elem]]
    simp only [List.take_left, List.drop_left]
    refine ⟨_, rfl, ?_, ?_, ?_, ?_⟩
    · simp [MkvPart.bytes, MkvPart.head, MkvPart.data, MkvPart.elem, MkvBlock.info]
    · dsimp only
      rw [show (MkvPart.block b).bytes = (b.id ++ b.size) ++ (b.head ++ b.data) from by simp [MkvPart.bytes, MkvPart.head, MkvPart.data],
        crc32_append (b.id ++ b.size), crc32_append b.head]
      rfl
    · intro c hc
      obtain ⟨h1, extra', h2⟩ := hr.tracks c (by simp [hc])
      refine ⟨h1, ?_⟩
      by_cases hcb : c.track = b.track
      · rw [hcb]
        exact ⟨extra, by simp [TrackFiles.set, MkvBlock.info]⟩
      · refine ⟨extra', ?_⟩
        have : mkvTrackData (.block b :: rest) c.track = mkvTrackData rest c.track := by
          simp [mkvTrackData, show ¬ b.track = c.track from fun e => hcb e.symm]
        rw [this] at h2
        simp [TrackFiles.set, hcb, h2, MkvBlock.info]
    · have := hr.atts
      simpa [attachments] using this

theorem mkvRebuild_fold {ts : MkvTracks} {a rest : List MkvPart} : ∀ {s : MkvRebuild} (pos : Nat), (∀ p ∈ a, p.Ok ∧ KeptPart p) →
    RebReady ts (a ++ rest) s → ∀ more, ∃ pos' s', mkvFold (mkvRebuildHow 3) (mkvRebuildItem ts) (a.map kept ++ more) pos s =
      mkvFold (mkvRebuildHow 3) (mkvRebuildItem ts) more pos' s' ∧ s'.out = s.out ++ mkvBytes a ∧
        s'.crc = crc32 (mkvBytes a) s.crc ∧ RebReady ts rest s' := by
  induction a with
  | nil => intro s pos _ hr more; exact ⟨pos, s, rfl, by simp [mkvBytes], by simp [mkvBytes, crc32], hr⟩
  | cons p a ih =>
    intro s pos h hr more
    obtain ⟨s1, h1, h2, h3, h4⟩ := mkvRebuild_part (h p (by simp)).1 (h p (by simp)).2 hr pos
    obtain ⟨pos', s', g1, g2, g3, g4⟩ := ih (pos + (kept p).bytes.length) (fun q hq => h q (by simp [hq])) h4 more
    refine ⟨pos', s', ?_, ?_, ?_, g4⟩
    · rw [List.map_cons, List.cons_append, mkvFold]
      dsimp only [kept]
      rw [h1, ok_bind]
      dsimp only
      rw [if_neg (by simp)]
      exact g1
    · rw [g2, h2]; simp [mkvBytes]
    · rw [g3, h3, ← crc32_append]; simp [mkvBytes]

/-- The file is rebuilt. -/
theorem mkvRebuild_ok {ts : MkvTracks} {a b : List MkvPart} {seg sz od : Bytes} {files : TrackFiles} {atts : MkvAttach}
    (hs : MkvPart.Ok (.enter segmentId seg)) (ho : MkvPart.Ok (.leaf eResample sz od))
    (ha : ∀ p ∈ a, p.Ok ∧ KeptPart p) (hb : ∀ p ∈ b, p.Ok ∧ KeptPart p)
    (hr : RebReady ts (a ++ (.enter segmentId seg :: b)) { files := files, atts := atts }) :
    mkvRebuild (mkvItemsBytes (a.map kept) ++ ((segmentId ++ seg) ++ ((eResample ++ (sz ++ od)) ++ mkvItemsBytes (b.map kept)))) 3 ts files atts =
      .ok (mkvBytes (a ++ .enter segmentId seg :: b), crc32 (mkvBytes (a ++ .enter segmentId seg :: b)) 0) := by
  have e : mkvItemsBytes (a.map kept) ++ ((segmentId ++ seg) ++ ((eResample ++ (sz ++ od)) ++ mkvItemsBytes (b.map kept))) =
      mkvItemsBytes (a.map kept ++ (kept (.enter segmentId seg) :: (.leaf eResample sz od, true) :: b.map kept)) := by
    simp [mkvItemsBytes, kept, MkvItem.bytes, MkvPart.head, MkvPart.data]
  have hseg : KeptPart (.enter segmentId seg) := by show segmentId ∈ mediaIds; decide
  unfold mkvRebuild
  rw [e, mkvWalk_items]
  · obtain ⟨pos1, s1, h1, h2, h3, h4⟩ := mkvRebuild_fold (ts := ts) (rest := .enter segmentId seg :: b) 0 ha hr
      (kept (.enter segmentId seg) :: (.leaf eResample sz od, true) :: b.map kept)
    rw [h1, mkvFold]
    obtain ⟨s2, g1, g2, g3, g4⟩ := mkvRebuild_part hs hseg h4 pos1
    dsimp only [kept]
    rw [g1, ok_bind]
    dsimp only
    rw [if_neg (by simp), mkvFold]
    have hit : ∀ (s : MkvRebuild) pos d, mkvRebuildItem ts s (MkvPart.elem pos (.leaf eResample sz od)) d = .ok (s, false) := by
      intro s pos d
      unfold mkvRebuildItem
      rw [if_pos (show (MkvPart.elem pos (.leaf eResample sz od)).id = eResample from rfl)]
    dsimp only
    rw [hit, ok_bind]
    dsimp only
    rw [if_neg (by simp)]
    obtain ⟨pos3, s3, k1, k2, k3, _⟩ := mkvRebuild_fold (ts := ts) (rest := []) (a := b) (s := s2)
      (pos1 + (kept (.enter segmentId seg)).bytes.length + (MkvItem.bytes (.leaf eResample sz od, true)).length) hb
      (by rw [List.append_nil]; exact g4) []
    rw [List.append_nil, mkvFold] at k1
    rw [show MkvItem.bytes (.enter segmentId seg, true) = (kept (.enter segmentId seg)).bytes from rfl, k1, ok_bind]
    rw [k2, g2, h2, k3, g3, h3, ← crc32_append, ← crc32_append]
    simp [mkvBytes, pure_eq_ok]
  · intro x hx
    rcases List.mem_append.1 hx with hx | hx
    · obtain ⟨p, hp, rfl⟩ := List.mem_map.1 hx
      exact (ha p hp).1
    · rcases List.mem_cons.1 hx with hx | hx
      · subst hx; exact hs
      · rcases List.mem_cons.1 hx with hx | hx
        · subst hx; exact ho
        · obtain ⟨p, hp, rfl⟩ := List.mem_map.1 hx
          exact (hb p hp).1
  · intro x hx s pos
    rcases List.mem_append.1 hx with hx | hx
    · obtain ⟨p, hp, rfl⟩ := List.mem_map.1 hx
      exact mkvRebuild_suits (ha p hp).1 (ha p hp).2 s pos
    · rcases List.mem_cons.1 hx with hx | hx
      · subst hx; exact mkvRebuild_suits hs hseg s pos
      · rcases List.mem_cons.1 hx with hx | hx
        · subst hx
          rw [mkvRebuildHow_eq, if_pos (show (MkvPart.elem pos (.leaf eResample sz od)).id = eResample from rfl)]
          exact Or.inl ⟨rfl, by simp, by simp⟩
        · obtain ⟨p, hp, rfl⟩ := List.mem_map.1 hx
          exact mkvRebuild_suits (hb p hp).1 (hb p hp).2 s pos
  · simp

end Rescene
