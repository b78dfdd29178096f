import Verif.Lemmas.MkvSrs
/-
Loading the SRS of an MKV sample.
-/
namespace Rescene
open Spec

/-- The loop ends at a part where it is done. -/
theorem mkvLoop_stop {σ : Type} {mode : EbmlMode} {how : σ → EbmlElem → EbmlHow} {f : σ → EbmlElem → Bytes → Res (σ × Bool)}
    {x : MkvItem} {tail : Bytes} (hm : mode ≠ .sample) (hx : x.1.Ok) (hskip : ∀ s pos, how s (x.1.elem pos) = .skip)
    (hstop : ∀ s pos d, f s (x.1.elem pos) d = .ok (s, true)) {l : List MkvItem} :
    ∀ (pre : Bytes) (s : σ) (fuel : Nat), (∀ x ∈ l, x.1.Ok) →
      (∀ x ∈ l, ∀ s pos, EbmlSuits mode (how s (x.1.elem pos)) x) →
      (∀ x ∈ l, ∀ s pos d r, f s (x.1.elem pos) d = .ok r → r.2 = false) → l.length < fuel →
      mkvLoop mode false how (pre ++ (mkvItemsBytes l ++ (x.bytes ++ tail))) f fuel pre.length s false = mkvFold how f l pre.length s := by
  induction l with
  | nil =>
    intro pre s fuel _ _ _ hfu
    cases fuel with
    | zero => simp at hfu
    | succ fuel =>
      rw [mkvLoop, mkvFold, show mkvItemsBytes [] ++ (x.bytes ++ tail) = x.bytes ++ tail from rfl, ebmlRead_item hx pre tail (fun h => absurd h hm), ok_bind]
      dsimp only
      rw [if_neg (by simp), hskip]
      have hc : ∃ q, ebmlContents mode .skip (pre ++ (x.bytes ++ tail)) (x.1.elem pre.length) = .ok ([], q) := by
        unfold ebmlContents
        dsimp only
        split
        · exact ⟨_, rfl⟩
        · exact ⟨_, rfl⟩
      obtain ⟨q, hq⟩ := hc
      rw [hq, ok_bind]
      dsimp only
      rw [hstop, ok_bind]
      dsimp only
      rw [if_pos ⟨rfl, rfl⟩]
      rfl
  | cons y l ih =>
    intro pre s fuel hok hsu hno hfu
    cases fuel with
    | zero => simp at hfu
    | succ fuel =>
      have hy := hok y (by simp)
      rw [mkvLoop, mkvFold, mkvItemsBytes_cons, List.append_assoc, ebmlRead_item hy pre _ (fun h => absurd h hm), ok_bind]
      dsimp only
      rw [if_neg (by simp), contents_item (hsu y (by simp) s pre.length), ok_bind]
      dsimp only
      cases hf : f s (y.1.elem pre.length) (ebmlSeen (how s (y.1.elem pre.length)) y.1) with
      | error e => rfl
      | ok z =>
        obtain ⟨s', done⟩ := z
        have := hno y (by simp) _ _ _ _ hf
        dsimp only at this
        subst this
        rw [ok_bind, ok_bind]
        dsimp only
        rw [if_neg (by simp), if_neg (by simp)]
        have := ih (pre ++ y.bytes) s' fuel (fun q hq => hok q (by simp [hq])) (fun q hq => hsu q (by simp [hq]))
          (fun q hq => hno q (by simp [hq])) (by simp at hfu; omega)
        rw [List.append_assoc, List.length_append] at this
        exact this

def loadChildIds : List Bytes := [segmentId, tracksId, trackEntryId, encodingsId, encodingId, compressionId, eResample]
def loadReadIds : List Bytes := [trackNumberId, codecId, compAlgoId, compSettingsId, eResampleFile, eResampleTrack]

theorem mkvLoadHow_eq (s : MkvLoad) (e : EbmlElem) :
    mkvLoadHow s e = if e.id ∈ loadChildIds then .child else if e.id ∈ loadReadIds then .read else .skip := by
  unfold mkvLoadHow
  simp only [loadChildIds, loadReadIds, List.mem_cons, List.not_mem_nil, or_false]
  rfl

/-- Parts as loading expects them. -/
def LoadPart : MkvPart → Prop
  | .enter id _ => id ∈ loadChildIds
  | .leaf id _ data => id ∉ loadChildIds ∧ id ≠ clusterId ∧ id ≠ attachmentsId ∧ (id ∈ [trackNumberId, compAlgoId] → PlainUInt data)
  | .block _ => False

theorem load_suits {p : MkvPart} (hp : LoadPart p) (s : MkvLoad) (pos : Nat) :
    EbmlSuits .srs (mkvLoadHow s (p.elem pos)) (p, true) := by
  rw [mkvLoadHow_eq]
  cases p with
  | enter id size => rw [if_pos (show (MkvPart.elem pos (.enter id size)).id ∈ loadChildIds from hp)]; exact Or.inr rfl
  | leaf id size data =>
    rw [if_neg (show (MkvPart.elem pos (.leaf id size data)).id ∉ loadChildIds from hp.1)]
    split
    · exact ⟨rfl, by simp, by simp⟩
    · exact Or.inl ⟨rfl, by simp, by simp⟩
  | block b => exact hp.elim

/-- The loop does not end before the clusters. -/
theorem load_goes_on {p : MkvPart} (hp : LoadPart p) (s : MkvLoad) (pos : Nat) (d : Bytes) (r : MkvLoad × Bool)
    (h : mkvLoadItem s (p.elem pos) d = .ok r) : r.2 = false := by
  have hid : (p.elem pos).id ≠ eCluster ∧ (p.elem pos).id ≠ eAttachList := by
    cases p with
    | enter id size =>
      have : id ∈ loadChildIds := hp
      constructor <;> (intro e; rw [show id = _ from e] at this; revert this; decide)
    | leaf id size data => exact ⟨hp.2.1, hp.2.2.1⟩
    | block b => exact hp.elim
  generalize p.elem pos = e at h hid
  unfold mkvLoadItem at h
  split at h
  · simp only [bind_eq_ok, pure_eq_ok, Except.ok.injEq] at h
    obtain ⟨_, _, rfl⟩ := h; rfl
  · split at h
    · simp only [bind_eq_ok, pure_eq_ok, Except.ok.injEq] at h
      obtain ⟨_, _, rfl⟩ := h; rfl
    · split at h
      · split at h
        · split at h <;> (injection h with h; subst h; rfl)
        · injection h with h; subst h; rfl
      · split at h
        · simp only [bind_eq_ok, pure_eq_ok, Except.ok.injEq] at h
          obtain ⟨_, _, rfl⟩ := h; rfl
        · split at h
          · simp only [bind_eq_ok, pure_eq_ok, Except.ok.injEq] at h
            obtain ⟨_, _, rfl⟩ := h; rfl
          · rw [if_neg (by rintro (h | h); exact hid.1 h; exact hid.2 h)] at h
            injection h with h; subst h; rfl

/-- Elements that are passed. -/
theorem load_pass {s : MkvLoad} {e : EbmlElem} {d : Bytes} (h1 : e.id ∉ [trackNumberId, compAlgoId, compSettingsId, eResampleFile, eResampleTrack])
    (h2 : e.id ≠ eCluster ∧ e.id ≠ eAttachList) : mkvLoadItem s e d = .ok (s, false) := by
  simp only [List.mem_cons, List.not_mem_nil, or_false, not_or] at h1
  unfold mkvLoadItem
  rw [if_neg (show ¬ e.id = eTrackNumber from h1.1), if_neg (show ¬ e.id = eCompAlgorithm from h1.2.1),
    if_neg (show ¬ e.id = eCompSettings from h1.2.2.1), if_neg (show ¬ e.id = eResampleFile from h1.2.2.2.1),
    if_neg (show ¬ e.id = eResampleTrack from h1.2.2.2.2), if_neg (by rintro (h | h); exact h2.1 h; exact h2.2 h)]

theorem plain_ids {id : Bytes} (h : id ∉ specialIds) : id ∉ loadChildIds ∧ id ∉ loadReadIds ∧ id ≠ clusterId ∧ id ≠ attachmentsId ∧
    id ∉ mediaIds ∧ id ∉ ownIds ∧ id ≠ fileDataId ∧ id ≠ fileNameId ∧ id ∉ childIds ∧ id ≠ segmentId := by
  have aux : ∀ l : List Bytes, (∀ x ∈ l, x ∈ specialIds) → id ∉ l := fun l hl hm => h (hl _ hm)
  have aux2 : ∀ x : Bytes, x ∈ specialIds → id ≠ x := by rintro x hx rfl; exact h hx
  refine ⟨aux _ (by decide), aux _ (by decide), aux2 _ (by decide), aux2 _ (by decide), aux _ (by decide), aux _ (by decide),
    aux2 _ (by decide), aux2 _ (by decide), aux _ (by decide), aux2 _ (by decide)⟩

/-- Going on behind parts that change nothing. -/
theorem load_passes {a : List MkvPart} {s : MkvLoad} (h : ∀ p ∈ a, ∀ (pos : Nat) (d : Bytes), mkvLoadItem s (p.elem pos) d = .ok (s, false)) : ∀ (pos : Nat) (more : List MkvItem),
    ∃ pos', mkvFold mkvLoadHow mkvLoadItem ((a.map fun p => (p, true)) ++ more) pos s = mkvFold mkvLoadHow mkvLoadItem more pos' s := by
  induction a with
  | nil => intro pos more; exact ⟨pos, rfl⟩
  | cons p a ih =>
    intro pos more
    rw [List.map_cons, List.cons_append, mkvFold]
    dsimp only
    rw [h p (by simp), ok_bind]
    dsimp only
    rw [if_neg (by simp)]
    exact ih (fun q hq => h q (by simp [hq])) _ more

theorem dictPut_new {α : Type} {l : List (Nat × α)} {n : Nat} {t : α} (h : n ∉ l.map (·.1)) : dictPut l n t = l ++ [(n, t)] := by
  induction l with
  | nil => rfl
  | cons y l ih =>
    obtain ⟨k, x⟩ := y
    simp only [List.map_cons, List.mem_cons, not_or] at h
    rw [dictPut, if_neg (fun e => h.1 e.symm), ih h.2]
    rfl

/-- The elements for the tracks are read. -/
theorem load_own {big : Bool} : ∀ {tracks : MkvTracks} {ps : List MkvPart} {s : MkvLoad} (pos : Nat) (more : List MkvItem),
    OwnLeaves big tracks ps → (∀ x ∈ tracks, x.1 = x.2.number) → (s.tracks.map (·.1) ++ tracks.map (·.1)).Pairwise (· ≠ ·) →
    ∃ pos', mkvFold mkvLoadHow mkvLoadItem ((ps.map fun p => (p, true)) ++ more) pos s =
      mkvFold mkvLoadHow mkvLoadItem more pos' { s with tracks := s.tracks ++ tracks.map fun x => (x.1, loadTrack big x.2) } := by
  intro tracks
  induction tracks with
  | nil =>
    intro ps s pos more h _ _
    cases ps with
    | nil => exact ⟨pos, by simp⟩
    | cons p ps => exact h.elim
  | cons x tracks ih =>
    intro ps s pos more h hx hd
    obtain ⟨n, t⟩ := x
    cases ps with
    | nil => exact h.elim
    | cons p ps =>
      obtain ⟨⟨sz, d, td, rfl, hok, hparse, hnum, htd⟩, h⟩ := h
      have hn := hx _ (List.mem_cons_self ..)
      dsimp only at hn
      rw [List.map_cons, List.cons_append, mkvFold]
      dsimp only
      have hit : mkvLoadItem s (MkvPart.elem pos (.leaf eResampleTrack sz d))
          (ebmlSeen (mkvLoadHow s (MkvPart.elem pos (.leaf eResampleTrack sz d))) (.leaf eResampleTrack sz d)) =
          .ok ({ s with tracks := s.tracks ++ [(n, loadTrack big t)] }, false) := by
        have e1 : ebmlSeen (mkvLoadHow s (MkvPart.elem pos (.leaf eResampleTrack sz d))) (.leaf eResampleTrack sz d) = d := by
          rw [mkvLoadHow_eq, if_neg (by show eResampleTrack ∉ loadChildIds; decide), if_pos (by show eResampleTrack ∈ loadReadIds; decide)]
          rfl
        rw [e1]
        have hnk : td.number ∉ s.tracks.map (·.1) := by
          rw [hnum, ← hn]
          intro hm
          rw [List.pairwise_append] at hd
          exact hd.2.2 n hm n (by simp) rfl
        unfold mkvLoadItem
        rw [if_neg (by show ¬ eResampleTrack = eTrackNumber; decide), if_neg (by show ¬ eResampleTrack = eCompAlgorithm; decide),
          if_neg (by show ¬ eResampleTrack = eCompSettings; decide), if_neg (by show ¬ eResampleTrack = eResampleFile; decide),
          if_pos (by show eResampleTrack = eResampleTrack; rfl), hparse, ok_bind]
        dsimp only
        rw [htd, dictPut_new hnk, hnum, hn]
        rfl
      rw [hit, ok_bind]
      dsimp only
      rw [if_neg (by simp)]
      obtain ⟨pos', h'⟩ := ih (s := { s with tracks := s.tracks ++ [(n, loadTrack big t)] })
        (pos + (MkvItem.bytes (.leaf eResampleTrack sz d, true)).length) more h (fun y hy => hx y (by simp [hy]))
        (by simpa using hd)
      refine ⟨pos', ?_⟩
      rw [h']
      simp

theorem dictPut_map {α β : Type} {l : List (Nat × α)} {n : Nat} (g : Nat × α → β) (t : β) (hd : l.Pairwise fun a b => a.1 ≠ b.1)
    (h : n ∈ l.map (·.1)) :
    dictPut (l.map fun x => (x.1, g x)) n t = l.map fun x => (x.1, if x.1 = n then t else g x) := by
  induction l with
  | nil => simp at h
  | cons y l ih =>
    rw [List.pairwise_cons] at hd
    rw [List.map_cons, dictPut]
    by_cases hk : y.1 = n
    · rw [if_pos hk, List.map_cons, if_pos hk]
      congr 1
      apply List.map_congr_left
      intro x hx
      rw [if_neg (fun e => hd.1 x hx (by rw [hk, e]))]
    · rw [if_neg hk, List.map_cons, if_neg hk]
      congr 1
      refine ih hd.2 ?_
      rw [List.map_cons, List.mem_cons] at h
      rcases h with h | h
      · exact absurd h.symm hk
      · exact h

/-- What is known of the tracks behind these parts. -/
def loadState (f : Option FileData) (base : MkvTracks) (st : StripState) : MkvLoad :=
  { file := f, cur := st.cur, strip := st.strip, tracks := base.map fun x => (x.1, { x.2 with settings := st.settings x.1 }) }

/-- The parts of the description of tracks. -/
def InfoPart : MkvPart → Prop
  | .enter id _ => id ∈ [tracksId, trackEntryId, encodingsId, encodingId, compressionId]
  | .leaf id _ data => id ∉ specialIds ∨ id ∈ [codecId, compSettingsId] ∨ (id ∈ [trackNumberId, compAlgoId] ∧ PlainUInt data)
  | .block _ => False

theorem infoPart_load {p : MkvPart} (h : InfoPart p) : LoadPart p := by
  cases p with
  | enter id size =>
    have h : id ∈ [tracksId, trackEntryId, encodingsId, encodingId, compressionId] := h
    have : ∀ x ∈ [tracksId, trackEntryId, encodingsId, encodingId, compressionId], x ∈ loadChildIds := by decide
    exact this id h
  | leaf id size data =>
    rcases h with h | h | ⟨h, hu⟩
    · obtain ⟨h1, h2, h3, h4, _⟩ := plain_ids h
      refine ⟨h1, h3, h4, fun hm => absurd hm ?_⟩
      intro hm
      have : ∀ x ∈ [trackNumberId, compAlgoId], x ∈ loadReadIds := by decide
      exact h2 (this id hm)
    · have : ∀ x ∈ [codecId, compSettingsId], x ∉ loadChildIds ∧ x ≠ clusterId ∧ x ≠ attachmentsId ∧ x ∉ [trackNumberId, compAlgoId] := by decide
      obtain ⟨h1, h2, h3, h4⟩ := this id h
      exact ⟨h1, h2, h3, fun hm => absurd hm h4⟩
    · have : ∀ x ∈ [trackNumberId, compAlgoId], x ∉ loadChildIds ∧ x ≠ clusterId ∧ x ≠ attachmentsId := by decide
      obtain ⟨h1, h2, h3⟩ := this id h
      exact ⟨h1, h2, h3, fun _ => hu⟩
  | block b => exact h

theorem stripStep_other (st : StripState) {id size data : Bytes} (h : id ∉ [trackNumberId, compAlgoId, compSettingsId]) :
    stripStep st (.leaf id size data) = st := by
  simp only [List.mem_cons, List.not_mem_nil, or_false, not_or] at h
  rw [stripStep_leaf, if_neg h.1, if_neg h.2.1, if_neg (fun hh => h.2.2 hh.1)]

theorem load_info_part {f : Option FileData} {base : MkvTracks} {st : StripState} {p : MkvPart} (hp : InfoPart p)
    (hd : base.Pairwise fun a b => a.1 ≠ b.1) (pos : Nat) :
    mkvLoadItem (loadState f base st) (p.elem pos) (ebmlSeen (mkvLoadHow (loadState f base st) (p.elem pos)) p) =
      .ok (loadState f base (stripStep st p), false) := by
  cases p with
  | enter id size =>
    have h : id ∈ [tracksId, trackEntryId, encodingsId, encodingId, compressionId] := hp
    have : ∀ x ∈ [tracksId, trackEntryId, encodingsId, encodingId, compressionId],
      x ∉ [trackNumberId, compAlgoId, compSettingsId, eResampleFile, eResampleTrack] ∧ x ≠ eCluster ∧ x ≠ eAttachList := by decide
    exact load_pass (e := MkvPart.elem pos (.enter id size)) (this id h).1 (this id h).2
  | block b => exact hp.elim
  | leaf id size data =>
    have hseen : id ∈ loadReadIds → ebmlSeen (mkvLoadHow (loadState f base st) (MkvPart.elem pos (.leaf id size data))) (.leaf id size data) = data := by
      intro hm
      have hnc : id ∉ loadChildIds := (infoPart_load hp).1
      rw [mkvLoadHow_eq, if_neg (by exact hnc), if_pos (by exact hm)]
      rfl
    rcases hp with h | h | ⟨h, hu⟩
    · obtain ⟨_, h2, h3, h4, _⟩ := plain_ids h
      have h5 : id ∉ [trackNumberId, compAlgoId, compSettingsId, eResampleFile, eResampleTrack] := by
        intro hm
        have : ∀ x ∈ [trackNumberId, compAlgoId, compSettingsId, eResampleFile, eResampleTrack], x ∈ loadReadIds := by decide
        exact h2 (this id hm)
      rw [stripStep_other]
      · exact load_pass (e := MkvPart.elem pos (.leaf id size data)) h5 ⟨h3, h4⟩
      · intro hm
        have : ∀ x ∈ [trackNumberId, compAlgoId, compSettingsId], x ∈ [trackNumberId, compAlgoId, compSettingsId, eResampleFile, eResampleTrack] := by decide
        exact h5 (this id hm)
    · simp only [List.mem_cons, List.not_mem_nil, or_false] at h
      rcases h with rfl | rfl
      · rw [stripStep_other _ (by decide)]
        exact load_pass (e := MkvPart.elem pos (.leaf codecId size data)) (by show codecId ∉ _; decide) ⟨by show codecId ≠ _; decide, by show codecId ≠ _; decide⟩
      · rw [hseen (by decide)]
        unfold mkvLoadItem
        rw [if_neg (by show ¬ compSettingsId = eTrackNumber; decide), if_neg (by show ¬ compSettingsId = eCompAlgorithm; decide),
          if_pos (by show compSettingsId = eCompSettings; rfl)]
        by_cases hs : st.strip = true
        · rw [if_pos (show (loadState f base st).strip = true from hs), stripStep_leaf, if_neg (by decide), if_neg (by decide), if_pos ⟨rfl, hs⟩]
          cases hg : movGet (loadState f base st).tracks (loadState f base st).cur with
          | none =>
            dsimp only
            have hk := movGet_none.1 hg
            have : loadState f base st = loadState f base { st with settings := fun n => if n = st.cur then data else st.settings n } := by
              unfold loadState
              dsimp only
              congr 1
              apply List.map_congr_left
              intro x hx
              rw [if_neg]
              intro e
              refine hk (List.mem_map.2 ⟨(x.1, _), List.mem_map.2 ⟨x, hx, rfl⟩, e⟩)
            rw [← this]
          | some t =>
            dsimp only
            have hm := movGet_eq_some hg
            obtain ⟨x, hx, hxt⟩ := List.mem_map.1 hm
            injection hxt with hx1 hx2
            congr 2
            unfold loadState
            dsimp only
            congr 1
            refine (dictPut_map (l := base) (n := st.cur) (fun x => ({ x.2 with settings := st.settings x.1 } : MkvTrack)) _ hd (List.mem_map.2 ⟨x, hx, hx1⟩)).trans ?_
            apply List.map_congr_left
            intro y hy
            by_cases hyc : y.1 = st.cur
            · rw [if_pos hyc, if_pos hyc]
              have : y = x := by
                have h1 := movGet_of_mem hd (n := y.1) (t := y.2) hy
                have h2 := movGet_of_mem hd (n := x.1) (t := x.2) hx
                have e : y.1 = x.1 := by rw [hyc, hx1]; rfl
                rw [e, h2] at h1
                injection h1 with h1
                exact Prod.ext e h1.symm
              rw [this, ← hx2]
            · rw [if_neg hyc, if_neg hyc]
        · rw [if_neg (show ¬ (loadState f base st).strip = true from hs), stripStep_leaf, if_neg (by decide), if_neg (by decide), if_neg (fun h => hs h.2)]
    · simp only [List.mem_cons, List.not_mem_nil, or_false] at h
      rcases h with rfl | rfl
      · rw [hseen (by decide)]
        unfold mkvLoadItem
        rw [if_pos (by show trackNumberId = eTrackNumber; rfl), uint_read hu, ok_bind, stripStep_leaf, if_pos rfl]
        rfl
      · rw [hseen (by decide)]
        unfold mkvLoadItem
        rw [if_neg (by show ¬ compAlgoId = eTrackNumber; decide), if_pos (by show compAlgoId = eCompAlgorithm; rfl), uint_read hu, ok_bind,
          stripStep_leaf, if_neg (by decide), if_pos rfl]
        rfl

theorem load_info {f : Option FileData} {base : MkvTracks} {a : List MkvPart} (hd : base.Pairwise fun a b => a.1 ≠ b.1) :
    ∀ {st : StripState} (pos : Nat), (∀ p ∈ a, InfoPart p) →
    mkvFold mkvLoadHow mkvLoadItem (a.map fun p => (p, true)) pos (loadState f base st) = .ok (loadState f base (a.foldl stripStep st)) := by
  induction a with
  | nil => intro st pos _; rfl
  | cons p a ih =>
    intro st pos h
    rw [List.map_cons, mkvFold]
    dsimp only
    rw [load_info_part (h p (by simp)) hd, ok_bind]
    dsimp only
    rw [if_neg (by simp)]
    exact ih _ fun q hq => h q (by simp [hq])

/-- Description and tracks of the sample are read back; `media` is what follows: nothing, or a part
where loading ends. -/
theorem mkvLoad_ok {app name : Str} {size crc : Nat} {tracks : MkvTracks} {big : Bool} {lead info : List MkvPart} {seg sz szf f media : Bytes}
    {ps : List MkvPart} (hs : MkvPart.Ok (.enter segmentId seg)) (ho : MkvPart.Ok (.leaf eResample sz (mkvBytes (.leaf eResampleFile szf f :: ps))))
    (hfo : MkvPart.Ok (.leaf eResampleFile szf f)) (hps : OwnLeaves big tracks ps)
    (hf : fileParse f = .ok ⟨3, app, basename name, size, crc⟩)
    (hx : ∀ x ∈ tracks, x.1 = x.2.number) (hd : tracks.Pairwise fun a b => a.1 ≠ b.1)
    (hl : ∀ p ∈ lead, p.Ok ∧ ∃ id size data, p = .leaf id size data ∧ id ∉ specialIds) (hi : ∀ p ∈ info, p.Ok ∧ InfoPart p)
    (hm : media = [] ∨ ∃ x : MkvItem, ∃ tail, media = x.bytes ++ tail ∧ x.1.Ok ∧ x.1.id ∈ [clusterId, attachmentsId]) :
    mkvLoadSrs (mkvBytes lead ++ ((segmentId ++ seg) ++ ((eResample ++ (sz ++ mkvBytes (.leaf eResampleFile szf f :: ps))) ++ (mkvBytes info ++ media)))) =
      .ok (some ⟨3, app, basename name, size, crc⟩,
        tracks.map fun x => (x.1, { loadTrack big x.2 with settings := strippedHeader info x.1 })) := by
  have hps_ok : ∀ {tracks : MkvTracks} {ps : List MkvPart}, OwnLeaves big tracks ps → ∀ p ∈ ps, p.Ok ∧ ∃ s d, p = .leaf eResampleTrack s d := by
    intro tracks
    induction tracks with
    | nil => intro ps h; cases ps with
      | nil => simp
      | cons => exact h.elim
    | cons x tracks ih =>
      intro ps h
      cases ps with
      | nil => exact h.elim
      | cons p ps =>
        intro q hq
        rcases List.mem_cons.1 hq with rfl | hq
        · obtain ⟨⟨s, d, _, e, hok, _⟩, _⟩ := h
          exact ⟨hok, s, d, e⟩
        · exact ih h.2 q hq
  let own : List MkvPart := [.enter segmentId seg, .enter eResample sz]
  let all : List MkvPart := lead ++ (own ++ (.leaf eResampleFile szf f :: (ps ++ info)))
  have hsz : MkvPart.Ok (.enter eResample sz) := ⟨ho.1, ho.2.1, number_of_vint ho.2.2⟩
  have hbytes : mkvBytes lead ++ ((segmentId ++ seg) ++ ((eResample ++ (sz ++ mkvBytes (.leaf eResampleFile szf f :: ps))) ++ (mkvBytes info ++ media))) =
      mkvItemsBytes (all.map fun p => (p, true)) ++ media := by
    rw [itemsBytes_all]
    simp [all, own, mkvBytes, MkvPart.bytes, MkvPart.head, MkvPart.data]
  have hall : ∀ p ∈ all, p.Ok ∧ LoadPart p := by
    intro p hp
    rcases List.mem_append.1 hp with hp | hp
    · obtain ⟨h1, id, size, data, rfl, h2⟩ := hl p hp
      refine ⟨h1, ?_⟩
      exact infoPart_load (p := .leaf id size data) (Or.inl h2)
    · rcases List.mem_append.1 hp with hp | hp
      · simp only [own, List.mem_cons, List.not_mem_nil, or_false] at hp
        rcases hp with rfl | rfl
        · exact ⟨hs, by show segmentId ∈ loadChildIds; decide⟩
        · exact ⟨hsz, by show eResample ∈ loadChildIds; decide⟩
      · rcases List.mem_cons.1 hp with rfl | hp
        · refine ⟨hfo, ?_⟩
          show eResampleFile ∉ loadChildIds ∧ eResampleFile ≠ clusterId ∧ eResampleFile ≠ attachmentsId ∧ (eResampleFile ∈ [trackNumberId, compAlgoId] → PlainUInt f)
          exact ⟨by decide, by decide, by decide, fun h => absurd h (by decide)⟩
        · rcases List.mem_append.1 hp with hp | hp
          · obtain ⟨h1, s, d, rfl⟩ := hps_ok hps p hp
            refine ⟨h1, ?_⟩
            show eResampleTrack ∉ loadChildIds ∧ eResampleTrack ≠ clusterId ∧ eResampleTrack ≠ attachmentsId ∧ (eResampleTrack ∈ [trackNumberId, compAlgoId] → PlainUInt d)
            exact ⟨by decide, by decide, by decide, fun h => absurd h (by decide)⟩
          · exact ⟨(hi p hp).1, infoPart_load (hi p hp).2⟩
  have hallok : ∀ x ∈ all.map fun p => ((p, true) : MkvItem), x.1.Ok := by
    intro x hx
    obtain ⟨p, hpm, rfl⟩ := List.mem_map.1 hx
    exact (hall p hpm).1
  have hsuits : ∀ x ∈ all.map fun p => ((p, true) : MkvItem), ∀ s pos, EbmlSuits .srs (mkvLoadHow s (x.1.elem pos)) x := by
    intro x hx s pos
    obtain ⟨p, hpm, rfl⟩ := List.mem_map.1 hx
    exact load_suits (hall p hpm).2 s pos
  have hwalk : mkvWalk .srs false mkvLoadHow (mkvItemsBytes (all.map fun p => (p, true)) ++ media) mkvLoadItem {} =
      mkvFold mkvLoadHow mkvLoadItem (all.map fun p => (p, true)) 0 {} := by
    rcases hm with rfl | ⟨x, tail, rfl, hxok, hxid⟩
    · rw [List.append_nil]
      exact mkvWalk_items _ hallok hsuits (by simp)
    · unfold mkvWalk
      have hc := mkvItems_count hallok
      have hid2 : ∀ y ∈ [clusterId, attachmentsId], y ∉ loadChildIds ∧ y ∉ loadReadIds ∧ y ≠ eTrackNumber ∧ y ≠ eCompAlgorithm ∧
        y ≠ eCompSettings ∧ y ≠ eResampleFile ∧ y ≠ eResampleTrack ∧ (y = eCluster ∨ y = eAttachList) := by decide
      obtain ⟨i1, i2, i3, i4, i5, i6, i7, i8⟩ := hid2 _ hxid
      have hxe : ∀ pos, (x.1.elem pos).id = x.1.id := by
        intro pos
        cases hx1 : x.1 <;> rfl
      refine mkvLoop_stop (mode := .srs) (by simp) hxok (fun s pos => ?_) (fun s pos d => ?_) [] {} _ hallok hsuits ?_ ?_
      · rw [mkvLoadHow_eq, if_neg (by rw [hxe]; exact i1), if_neg (by rw [hxe]; exact i2)]
      · unfold mkvLoadItem
        rw [if_neg (by rw [hxe]; exact i3), if_neg (by rw [hxe]; exact i4), if_neg (by rw [hxe]; exact i5),
          if_neg (by rw [hxe]; exact i6), if_neg (by rw [hxe]; exact i7), if_pos (by rw [hxe]; exact i8)]
      · intro y hy s pos d r hr
        obtain ⟨p, hpm, rfl⟩ := List.mem_map.1 hy
        exact load_goes_on (hall p hpm).2 s pos d r hr
      · rw [List.length_append]; omega
  unfold mkvLoadSrs
  rw [hbytes, hwalk]
  simp only [all, List.map_append]
  obtain ⟨pos1, h1⟩ := load_passes (a := lead) (s := {}) (by
    intro p hp pos d
    obtain ⟨_, id, size, data, rfl, h2⟩ := hl p hp
    obtain ⟨_, h2', h3, h4, _⟩ := plain_ids h2
    refine load_pass (e := MkvPart.elem pos (.leaf id size data)) ?_ ⟨h3, h4⟩
    intro hm
    have : ∀ x ∈ [trackNumberId, compAlgoId, compSettingsId, eResampleFile, eResampleTrack], x ∈ loadReadIds := by decide
    exact h2' (this id hm)) 0 ((own.map fun p => (p, true)) ++ ((MkvPart.leaf eResampleFile szf f :: (ps ++ info)).map fun p => (p, true)))
  rw [h1]
  obtain ⟨pos2, h2⟩ := load_passes (a := own) (s := {}) (by
    intro p hp pos d
    simp only [own, List.mem_cons, List.not_mem_nil, or_false] at hp
    rcases hp with rfl | rfl
    · exact load_pass (e := MkvPart.elem pos (.enter segmentId seg)) (by show segmentId ∉ _; decide) ⟨by show segmentId ≠ _; decide, by show segmentId ≠ _; decide⟩
    · exact load_pass (e := MkvPart.elem pos (.enter eResample sz)) (by show eResample ∉ _; decide) ⟨by show eResample ≠ _; decide, by show eResample ≠ _; decide⟩)
    pos1 ((MkvPart.leaf eResampleFile szf f :: (ps ++ info)).map fun p => (p, true))
  rw [h2, List.map_cons, mkvFold]
  have hfile : ∀ (s : MkvLoad) (pos : Nat), mkvLoadItem s (MkvPart.elem pos (.leaf eResampleFile szf f))
      (ebmlSeen (mkvLoadHow s (MkvPart.elem pos (.leaf eResampleFile szf f))) (.leaf eResampleFile szf f)) =
      .ok ({ s with file := some ⟨3, app, basename name, size, crc⟩ }, false) := by
    intro s pos
    have e1 : ebmlSeen (mkvLoadHow s (MkvPart.elem pos (.leaf eResampleFile szf f))) (.leaf eResampleFile szf f) = f := by
      rw [mkvLoadHow_eq, if_neg (by show eResampleFile ∉ loadChildIds; decide), if_pos (by show eResampleFile ∈ loadReadIds; decide)]
      rfl
    rw [e1]
    unfold mkvLoadItem
    rw [if_neg (by show ¬ eResampleFile = eTrackNumber; decide), if_neg (by show ¬ eResampleFile = eCompAlgorithm; decide),
      if_neg (by show ¬ eResampleFile = eCompSettings; decide), if_pos (by show eResampleFile = eResampleFile; rfl), hf, ok_bind]
    rfl
  dsimp only
  rw [hfile, ok_bind]
  dsimp only
  rw [if_neg (by simp), List.map_append]
  obtain ⟨pos3, h3⟩ := load_own (big := big) (s := ({ file := some ⟨3, app, basename name, size, crc⟩ } : MkvLoad))
    (pos2 + (MkvItem.bytes (.leaf eResampleFile szf f, true)).length) (info.map fun p => (p, true)) hps hx (by
      show (([] : List Nat) ++ tracks.map (·.1)).Pairwise (· ≠ ·)
      rw [List.nil_append, List.pairwise_map]
      exact hd)
  rw [h3]
  have hst : ({ file := some ⟨3, app, basename name, size, crc⟩, tracks := [] ++ tracks.map fun x => (x.1, loadTrack big x.2) } : MkvLoad) =
      loadState (some ⟨3, app, basename name, size, crc⟩) (tracks.map fun x => (x.1, loadTrack big x.2)) {} := by
    unfold loadState
    dsimp only
    congr 1
    rw [List.nil_append, List.map_map]
    apply List.map_congr_left
    intro x _
    rfl
  rw [show ({ ({ file := some ⟨3, app, basename name, size, crc⟩ } : MkvLoad) with
    tracks := ({ file := some ⟨3, app, basename name, size, crc⟩ } : MkvLoad).tracks ++ tracks.map fun x => (x.1, loadTrack big x.2) } : MkvLoad) = _ from hst,
    load_info (by rw [List.pairwise_map]; exact hd) pos3 (fun p hp => (hi p hp).2), ok_bind]
  unfold loadState
  dsimp only
  rw [List.map_map]
  rfl

end Rescene
