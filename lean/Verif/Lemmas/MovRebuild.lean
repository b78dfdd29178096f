import Verif.Lemmas.MovSrs
/-
Rebuilding MP4 samples.
-/
namespace Rescene
open Spec

/-! ### The tables in an SRS -/

abbrev SrsState := (Nat → Option MovTables) × Option Nat

def srsStep (ids : List Nat) (s : SrsState) (l : Bytes × Bytes) : Res SrsState :=
  if l.1 = aTkhd then do
    let id ← unpackBeAt 4 l.2 12
    if id ∈ ids then return (fun k => if k = id then some {} else s.1 k, some id)
    else throw .keyError
  else do
    let tb ← movTable (s.2.bind s.1) l.1 l.2
    match s.2, tb with
    | some id, some tb => return (fun k => if k = id then some tb else s.1 k, some id)
    | _, _ => return s

/-- The current track has tables. -/
def SrsGood (s : SrsState) : Prop := ∀ id, s.2 = some id → s.1 id ≠ none

theorem srsStep_noop {ids : List Nat} {s : SrsState} {l : Bytes × Bytes} (hs : SrsGood s) (h : isTable l = false) :
    srsStep ids s l = .ok s := by
  simp only [isTable, Bool.or_eq_false_iff, beq_eq_false_iff_ne] at h
  obtain ⟨⟨⟨h0, h1⟩, h2⟩, h3⟩ := h
  unfold srsStep
  rw [if_neg (show ¬ l.1 = aTkhd from h0), movTable_other h1 h2 h3, ok_bind]
  obtain ⟨g, cur⟩ := s
  cases cur with
  | none => rfl
  | some id =>
    have := hs id rfl
    dsimp only at this
    cases hg : g id with
    | none => exact absurd hg this
    | some tb =>
      simp only [Option.bind_some, hg]
      show Except.ok _ = Except.ok _
      congr 2
      funext k
      split
      · rename_i hk; rw [hk, hg]
      · rfl

theorem srsStep_good {ids : List Nat} {s s' : SrsState} {l : Bytes × Bytes} (hs : SrsGood s) (h : srsStep ids s l = .ok s') :
    SrsGood s' := by
  unfold srsStep at h
  split at h
  · rw [bind_eq_ok] at h
    obtain ⟨id, _, h⟩ := h
    split at h
    · injection h with h
      subst h
      rintro id' e
      injection e with e
      subst e
      simp
    · simp at h
  · rw [bind_eq_ok] at h
    obtain ⟨tb, _, h⟩ := h
    split at h
    · injection h with h
      subst h
      rintro id' e
      injection e with e
      subst e
      simp
    · injection h with h
      subst h
      exact hs

theorem srs_fold_filter {ids : List Nat} {ls : List (Bytes × Bytes)} : ∀ {s : SrsState}, SrsGood s →
    ls.foldlM (srsStep ids) s = (ls.filter isTable).foldlM (srsStep ids) s := by
  induction ls with
  | nil => intro s _; rfl
  | cons l ls ih =>
    intro s hs
    cases h : isTable l with
    | false => rw [List.foldlM_cons, srsStep_noop hs h, ok_bind, List.filter_cons_of_neg (by simp [h]), ih hs]
    | true =>
      rw [List.foldlM_cons, List.filter_cons_of_pos h, List.foldlM_cons]
      cases hst : srsStep ids s l with
      | error e => rfl
      | ok s' =>
        rw [ok_bind, ok_bind]
        exact ih (srsStep_good hs hst)

theorem srs_section {ids : List Nat} {rest : List (Bytes × Bytes)} {full : MovTables} {id : Nat} (hd : Decoded rest full)
    (hl : ∀ l ∈ rest, l.1 ≠ tkhdType) {g : Nat → Option MovTables} {more : List (Bytes × Bytes)} :
    ∀ {done : List (Bytes × Bytes)}, rest = done ++ more →
    more.foldlM (srsStep ids) (fun k => if k = id then some (tablesAfter full done) else g k, some id) =
      .ok (fun k => if k = id then some full else g k, some id) := by
  induction more with
  | nil =>
    intro done e
    rw [List.append_nil] at e
    subst e
    rw [List.foldlM_nil, tablesAfter_all hd]
    rfl
  | cons l more ih =>
    intro done e
    have hstep : srsStep ids (fun k => if k = id then some (tablesAfter full done) else g k, some id) l =
        .ok (fun k => if k = id then some (tablesAfter full (done ++ [l])) else g k, some id) := by
      unfold srsStep
      rw [if_neg (show ¬ l.1 = aTkhd from hl l (by rw [e]; simp))]
      dsimp only [Option.bind_some]
      rw [if_pos rfl, tables_step hd e, ok_bind]
      show Except.ok _ = Except.ok _
      congr 2
      funext k
      split <;> rfl
    rw [List.foldlM_cons, hstep, ok_bind]
    exact ih (by simp [e])

theorem srs_sections {ids : List Nat} {tracks : List MovLayout} : ∀ {s : SrsState} {ls : List (Bytes × Bytes)}, Sections ls tracks →
    tracks.Pairwise (fun a b => a.id ≠ b.id) → (∀ t ∈ tracks, t.id ∈ ids) →
    ∃ s', ls.foldlM (srsStep ids) s = .ok s' ∧ (∀ t ∈ tracks, ∃ full, s'.1 t.id = some full ∧ TablesOf full t) ∧
      ∀ k, (∀ t ∈ tracks, t.id ≠ k) → s'.1 k = s.1 k := by
  induction tracks with
  | nil =>
    intro s ls h _ _
    change ls = [] at h
    subst h
    exact ⟨s, rfl, by simp, fun _ _ => rfl⟩
  | cons t ts ih =>
    intro s ls h hpw hids
    obtain ⟨s1, rest, rfl, hdes, hsec⟩ := h
    obtain ⟨d, r, full, rfl, hh, hl, hd, ht⟩ := describes_decoded hdes
    rw [List.pairwise_cons] at hpw
    have hfirst : srsStep ids s (tkhdType, d) = .ok (fun k => if k = t.id then some (tablesAfter full []) else s.1 k, some t.id) := by
      unfold srsStep
      rw [if_pos (show (tkhdType, d).1 = aTkhd from rfl), trackHeader_read hh, ok_bind, if_pos (hids t (by simp))]
      rfl
    obtain ⟨s', h1, h2, h3⟩ := ih (s := (fun k => if k = t.id then some full else s.1 k, some t.id)) hsec hpw.2
      (fun u hu => hids u (by simp [hu]))
    refine ⟨s', ?_, ?_, ?_⟩
    · rw [List.cons_append, List.foldlM_cons, hfirst, ok_bind, List.foldlM_append,
        srs_section (ids := ids) hd hl (g := s.1) (done := []) rfl, ok_bind, h1]
    · intro u hu
      rcases List.mem_cons.1 hu with rfl | hu
      · refine ⟨full, ?_, ht⟩
        rw [h3 u.id (fun v hv => (hpw.1 v hv).symm)]
        simp
      · exact h2 u hu
    · intro k hk
      rw [h3 k (fun u hu => hk u (by simp [hu]))]
      exact if_neg fun e => hk t (by simp) e.symm

theorem srs_tables {ids : List Nat} {tracks : List MovLayout} {ls : List (Bytes × Bytes)} (h : HasTracks ls tracks)
    (hids : ∀ t ∈ tracks, t.id ∈ ids) :
    ∃ s', (ls.filter isTable).foldlM (srsStep ids) (fun _ => none, none) = .ok s' ∧
      ∀ t ∈ tracks, ∃ full, s'.1 t.id = some full ∧ TablesOf full t := by
  obtain ⟨⟨lead, rest, rfl, hl, hs⟩, hd⟩ := h
  have hg : SrsGood (fun _ => none, none) := by intro id h; simp at h
  obtain ⟨s', h1, h2, _⟩ := srs_sections (ids := ids) (s := (fun _ => none, none)) hs hd hids
  refine ⟨s', ?_, h2⟩
  rw [← srs_fold_filter hg, List.foldlM_append]
  have : lead.foldlM (srsStep ids) (fun _ => none, none) = .ok (fun _ => none, none) := by
    rw [srs_fold_filter hg, List.filter_eq_nil_iff.2]
    · rfl
    · intro l hl'
      have := hl l hl'
      simp only [List.mem_cons, List.not_mem_nil, or_false, not_or] at this
      simp [isTable, isOff, isRun, isSize, this]
  rw [this, ok_bind, h1]

/-! Reading the tables of an SRS. -/

def tablesHow (ty : Bytes) : MovHow := if movContainer ty ∨ ty = aMdat then .child else .read

theorem enter_not_table {type : Bytes} (h : tablesHow type = .child) (d : Bytes) : isTable (type, d) = false := by
  unfold tablesHow at h
  split at h
  · rename_i hc
    rcases hc with hc | rfl
    · exact container_not_table ((movContainer_iff type).1 hc) d
    · rfl
  · simp at h

theorem tables_parts {ids : List Nat} {total : Nat} {parts : List MovPart} : ∀ {pos : Nat} {s : SrsState},
    (∀ p ∈ parts, Suits tablesHow p) → SrsGood s →
    (movItems tablesHow total pos parts).foldlM (mp4SrsTablesItem ids) s = (leaves parts).foldlM (srsStep ids) s := by
  induction parts with
  | nil => intro pos s _ _; rfl
  | cons p ps ih =>
    intro pos s hsu hs
    have h1 := hsu p (by simp)
    rw [movItems, List.foldlM_cons]
    have hstep : mp4SrsTablesItem ids s (p.item tablesHow total pos) =
        srsStep ids s ((p.item tablesHow total pos).atom.type, (p.item tablesHow total pos).data) := rfl
    rw [hstep]
    cases p with
    | enter form type n =>
      have : srsStep ids s (((MovPart.enter form type n).item tablesHow total pos).atom.type,
          ((MovPart.enter form type n).item tablesHow total pos).data) = .ok s :=
        srsStep_noop hs (enter_not_table h1.2.2 _)
      rw [this, ok_bind]
      exact ih (fun q hq => hsu q (by simp [hq])) hs
    | leaf form type data =>
      have hd : ((MovPart.leaf form type data).item tablesHow total pos).data = data := by
        refine if_neg ?_
        unfold tablesHow
        split <;> simp
      have hl : leaves (MovPart.leaf form type data :: ps) = (type, data) :: leaves ps := by simp [leaves]
      rw [hd, hl, List.foldlM_cons]
      show (srsStep ids s (type, data) >>= _) = _
      cases hst : srsStep ids s (type, data) with
      | error e => rfl
      | ok s' =>
        rw [ok_bind, ok_bind]
        exact ih (fun q hq => hsu q (by simp [hq])) (srsStep_good hs hst)

theorem leaves_append (a b : List MovPart) : leaves (a ++ b) = leaves a ++ leaves b := by simp [leaves]

/-- The SRS has the tables of the sample. -/
theorem srs_leaves {f : Bytes} {ds : List Bytes} {tops : List MovTop} (hok : ∀ p ∈ flatten tops, p.Ok) :
    (leaves (tops.flatMap (srsFlat (ownAtoms f ds)))).filter isTable = (leaves (flatten tops)).filter isTable := by
  have hown : (leaves (ownAtoms f ds)).filter isTable = [] := by
    rw [List.filter_eq_nil_iff]
    intro l hl
    simp only [leaves, List.mem_filterMap] at hl
    obtain ⟨p, hp, e⟩ := hl
    rcases ownAtoms_mem hp with rfl | ⟨d, _, rfl⟩
    · injection e with e; subst e; simp [isTable, isOff, isRun, isSize]; decide
    · injection e with e; subst e; simp [isTable, isOff, isRun, isSize]; decide
  induction tops with
  | nil => rfl
  | cons t ts ih =>
    rw [List.flatMap_cons, flatten_cons, leaves_append, leaves_append, List.filter_append, List.filter_append,
      ih fun p hp => hok p (by rw [flatten_cons]; exact List.mem_append_right _ hp)]
    congr 1
    unfold srsFlat
    split
    · rename_i hty
      rw [leaves_append, List.filter_append, hown]
      cases t with
      | box form type data =>
        change type = mdatType at hty
        subst hty
        rfl
      | tree form type inner =>
        have h1 : (MovPart.enter form type (movBytes inner).length).Ok := hok _ (by rw [flatten_cons]; simp [MovTop.flat])
        exact absurd hty (container_ne_mdat h1.1)
    · rfl

theorem srsFlat_suits {f : Bytes} {ds : List Bytes} {big : Bool} {tracks : Tracks} {tops : List MovTop}
    (hf : 8 + f.length < 2 ^ 32) (hd : OwnTracks4 big tracks ds) (hok : ∀ p ∈ flatten tops, p.Ok)
    (hin : ∀ form type inner, .tree form type inner ∈ tops → ∀ p ∈ inner, p.type ≠ mdatType) :
    ∀ p ∈ tops.flatMap (srsFlat (ownAtoms f ds)), Suits tablesHow p := by
  intro p hp
  obtain ⟨t, ht, hp⟩ := List.mem_flatMap.1 hp
  obtain ⟨h1, h2⟩ := top_ok hok ht
  unfold srsFlat at hp
  split at hp
  · rename_i hty
    rcases List.mem_append.1 hp with hp | hp
    · exact ownAtoms_suits hf hd (by decide) (by decide) p hp
    · rw [List.mem_singleton] at hp
      subst hp
      exact ⟨h1, h2, by rw [hty]; decide⟩
  · rename_i hty
    have hpok : p.Ok := hok p (List.mem_flatMap.2 ⟨t, ht, hp⟩)
    have hne : p.type ≠ mdatType := by
      cases t with
      | box form type data =>
        simp only [MovTop.flat, List.mem_singleton] at hp
        subst hp
        exact hty
      | tree form type inner =>
        simp only [MovTop.flat, List.mem_cons] at hp
        rcases hp with rfl | hp
        · exact hty
        · exact hin form type inner ht p hp
    cases p with
    | enter form type n =>
      refine ⟨container_length hpok.1, hpok.2, ?_⟩
      unfold tablesHow
      rw [if_pos (Or.inl ((movContainer_iff type).2 hpok.1))]
    | leaf form type data =>
      refine ⟨hpok.1, hpok.2.2, ?_⟩
      unfold tablesHow
      rw [if_neg]
      · simp
      · rintro (h | h)
        · exact hpok.2.1 ((movContainer_iff type).1 h)
        · exact hne h

theorem mp4SrsTables_ok {f : Bytes} {ds : List Bytes} {big : Bool} {trk : Tracks} {tops : List MovTop} {tracks : List MovLayout}
    {ids : List Nat} (hf : 8 + f.length < 2 ^ 32) (hd : OwnTracks4 big trk ds) (hok : MovOk tops)
    (ht : HasTracks (leaves (flatten tops)) tracks) (hids : ∀ t ∈ tracks, t.id ∈ ids)
    (hbig : (movBytes (tops.flatMap (srsTop (ownAtoms f ds)))).length < 2 ^ 63) :
    ∃ g, mp4SrsTables ids (movBytes (tops.flatMap (srsTop (ownAtoms f ds)))) = .ok g ∧
      ∀ t ∈ tracks, ∃ full, g t.id = some full ∧ TablesOf full t := by
  obtain ⟨s', h1, h2⟩ := srs_tables ht hids
  refine ⟨s'.1, ?_, h2⟩
  rw [← srsFlat_bytes] at hbig ⊢
  have hsu := srsFlat_suits (tops := tops) hf hd hok.ok (fun f ty i hi => (hok.inner f ty i hi).2)
  have hw : movWalk .srs tablesHow (movBytes (tops.flatMap (srsFlat (ownAtoms f ds)))) (mp4SrsTablesItem ids)
      (fun _ => none, none) = .ok s' := by
    rw [movWalk_parts hsu hbig (srsFlat_ends ownAtoms_sized hok.ends) (by intro h; simp at h),
      tables_parts hsu (by intro id h; simp at h), srs_fold_filter (by intro id h; simp at h), srs_leaves hok.ok, h1]
  exact congrArg (fun r => r >>= _) hw

/-! ### The order of the chunks -/

theorem insertChunk_perm (c : Nat × Nat × Nat) : ∀ l, (insertChunk c l).Perm (c :: l)
  | [] => List.Perm.refl _
  | d :: l => by
    unfold insertChunk
    split
    · exact List.Perm.refl _
    · exact ((insertChunk_perm c l).cons d).trans (List.Perm.swap c d l)

theorem sortChunks_perm : ∀ l, (sortChunks l).Perm l
  | [] => List.Perm.refl _
  | c :: l => (insertChunk_perm c _).trans ((sortChunks_perm l).cons c)

theorem insertChunk_sorted (c : Nat × Nat × Nat) : ∀ l : List (Nat × Nat × Nat), l.Pairwise (fun a b => a.1 ≤ b.1) →
    (insertChunk c l).Pairwise (fun a b => a.1 ≤ b.1)
  | [], _ => by simp [insertChunk]
  | d :: l, h => by
    rw [List.pairwise_cons] at h
    unfold insertChunk
    split
    · rw [List.pairwise_cons, List.pairwise_cons]
      refine ⟨?_, h⟩
      intro x hx
      rcases List.mem_cons.1 hx with rfl | hx
      · assumption
      · have := h.1 x hx; omega
    · rw [List.pairwise_cons]
      refine ⟨?_, insertChunk_sorted c l h.2⟩
      intro x hx
      rcases List.mem_cons.1 ((insertChunk_perm c l).mem_iff.1 hx) with rfl | hx
      · omega
      · exact h.1 x hx

theorem sortChunks_sorted : ∀ l, (sortChunks l).Pairwise (fun a b => a.1 ≤ b.1)
  | [] => List.Pairwise.nil
  | c :: l => insertChunk_sorted c _ (sortChunks_sorted l)

theorem insertChunk_sublist (c : Nat × Nat × Nat) : ∀ l : List (Nat × Nat × Nat), l.Sublist (insertChunk c l)
  | [] => List.nil_sublist _
  | d :: l => by
    unfold insertChunk
    split
    · exact List.sublist_cons_self _ _
    · exact (insertChunk_sublist c l).cons_cons d

theorem insertChunk_keeps (c : Nat × Nat × Nat) : ∀ {l s : List (Nat × Nat × Nat)}, s.Sublist l → (∀ x ∈ s, c.1 ≤ x.1) →
    (c :: s).Sublist (insertChunk c l)
  | [], s, h, _ => by
    rw [List.sublist_nil.1 h]
    exact List.Sublist.refl _
  | d :: l, s, h, hs => by
    unfold insertChunk
    split
    · exact h.cons_cons c
    · rename_i hn
      cases h with
      | cons _ h => exact (insertChunk_keeps c h hs).cons d
      | cons_cons _ h => exact absurd (hs d (by simp)) hn

/-- Sorting is stable. -/
theorem sortChunks_sublist : ∀ {l s : List (Nat × Nat × Nat)}, s.Pairwise (fun a b => a.1 ≤ b.1) → s.Sublist l → s.Sublist (sortChunks l)
  | [], s, _, h => h
  | c :: l, s, hp, h => by
    cases h with
    | cons _ h => exact (sortChunks_sublist hp h).trans (insertChunk_sublist c _)
    | cons_cons _ h =>
      rw [List.pairwise_cons] at hp
      exact insertChunk_keeps c (sortChunks_sublist hp.2 h) hp.1

theorem mp4Streams_ok {g : Nat → Option MovTables} {files : TrackFiles} {trk : Tracks} : ∀ {tracks : List MovLayout},
    trk.map (·.1) = tracks.map (·.id) → (∀ t ∈ tracks, files t.id ≠ none) →
    (∀ t ∈ tracks, ∃ full, g t.id = some full ∧ TablesOf full t) →
    mp4Streams g files trk = .ok (tracks.map fun t => (t.id, t.chunks.map fun c => ⟨c.1, c.2⟩)) := by
  induction trk with
  | nil =>
    intro tracks h _ _
    have : tracks = [] := by simpa using h.symm
    subst this
    rfl
  | cons x trk ih =>
    intro tracks h hf hg
    obtain ⟨n, td⟩ := x
    cases tracks with
    | nil => simp at h
    | cons t ts =>
      simp only [List.map_cons, List.cons.injEq] at h
      obtain ⟨rfl, h⟩ := h
      obtain ⟨full, e1, e2⟩ := hg t (by simp)
      have hft := hf t (by simp)
      unfold mp4Streams
      rw [if_neg (by simpa using hft)]
      simp only [e1, movChunks_ok e2, ok_bind]
      rw [ih h (fun u hu => hf u (by simp [hu])) (fun u hu => hg u (by simp [hu])), ok_bind]
      rfl

def trackPieces (t : MovLayout) : List (Nat × Nat × Nat) := t.chunks.map fun c => (c.1, c.2.sum, t.id)

def orderOf (tracks : List MovLayout) : List (Nat × Nat × Nat) :=
  sortChunks (tracks.flatMap trackPieces)

theorem orderChunks_eq (tracks : List MovLayout) :
    orderChunks (tracks.map fun t => (t.id, t.chunks.map fun c => ⟨c.1, c.2⟩)) = orderOf tracks := by
  unfold orderChunks orderOf
  congr 1
  rw [List.flatMap_map]
  congr 1
  funext t
  simp [trackPieces]

theorem order_filter {tracks : List MovLayout} (hd : tracks.Pairwise fun a b => a.id ≠ b.id) {t : MovLayout} (ht : t ∈ tracks)
    (ho : t.chunks.Pairwise fun a b => a.1 ≤ b.1) : (orderOf tracks).filter (fun c => c.2.2 == t.id) = trackPieces t := by
  have hf : ∀ l : List MovLayout, l.Pairwise (fun a b => a.id ≠ b.id) → t ∈ l →
      (l.flatMap trackPieces).filter (fun c => c.2.2 == t.id) = trackPieces t ∧ (trackPieces t).Sublist (l.flatMap trackPieces) := by
    intro l
    induction l with
    | nil => intro _ h; simp at h
    | cons u us ih =>
      intro hp hm
      rw [List.pairwise_cons] at hp
      rw [List.flatMap_cons, List.filter_append]
      by_cases e : u.id = t.id
      · have hut : t = u := by
          rcases List.mem_cons.1 hm with h | h
          · exact h
          · exact absurd e (hp.1 t h)
        subst hut
        constructor
        · rw [List.filter_eq_self.2, List.filter_eq_nil_iff.2, List.append_nil]
          · intro c hc
            obtain ⟨v, hv, hc⟩ := List.mem_flatMap.1 hc
            obtain ⟨_, _, rfl⟩ := List.mem_map.1 hc
            simpa using (hp.1 v hv).symm
          · intro c hc
            obtain ⟨_, _, rfl⟩ := List.mem_map.1 hc
            simp
        · exact List.sublist_append_left _ _
      · have hm : t ∈ us := by
          rcases List.mem_cons.1 hm with h | h
          · exact absurd (by rw [h]) e
          · exact h
        obtain ⟨h1, h2⟩ := ih hp.2 hm
        constructor
        · rw [h1, List.filter_eq_nil_iff.2, List.nil_append]
          intro c hc
          obtain ⟨_, _, rfl⟩ := List.mem_map.1 hc
          simpa using e
        · exact h2.trans (List.sublist_append_right _ _)
  obtain ⟨h1, h2⟩ := hf tracks hd ht
  have hsub : (trackPieces t).Sublist (orderOf tracks) := by
    refine sortChunks_sublist ?_ h2
    rw [trackPieces, List.pairwise_map]
    exact ho
  have h3 := hsub.filter (fun c => c.2.2 == t.id)
  have hself : (trackPieces t).filter (fun c => c.2.2 == t.id) = trackPieces t := by
    rw [List.filter_eq_self]
    intro c hc
    obtain ⟨_, _, rfl⟩ := List.mem_map.1 hc
    simp
  rw [hself] at h3
  refine (h3.eq_of_length ?_).symm
  unfold orderOf
  rw [((sortChunks_perm (tracks.flatMap trackPieces)).filter (fun c => c.2.2 == t.id)).length_eq, h1]

/-- The bytes of a chunk. -/
def pieceData (file : Bytes) (c : Nat × Nat × Nat) : Bytes := (file.drop c.1).take c.2.1

theorem consecutive_data (file : Bytes) : ∀ (l : List (Nat × Nat)) (a b : Nat), Consecutive a l b →
    l.flatMap (fun c => (file.drop c.1).take c.2) = (file.drop a).take (b - a) ∧ a ≤ b ∧ (l.map (·.2)).sum = b - a
  | [], a, b, h => by
    change a = b at h
    subst h
    simp
  | c :: l, a, b, h => by
    obtain ⟨h1, h2⟩ := h
    obtain ⟨h3, h4, h5⟩ := consecutive_data file l _ _ h2
    refine ⟨?_, by omega, by rw [List.map_cons, List.sum_cons, h5]; omega⟩
    rw [List.flatMap_cons, h3, h1, ← List.drop_drop, ← List.take_add]
    congr 1
    omega

theorem consecutive_sorted : ∀ (l : List (Nat × Nat)) (a b : Nat), (∀ c ∈ l, c.2 ≠ 0) → Consecutive a l b →
    l.Pairwise (fun c d => c.1 < d.1) ∧ ∀ c ∈ l, a ≤ c.1
  | [], _, _, _, _ => by simp
  | c :: l, a, b, hz, h => by
    obtain ⟨h1, h2⟩ := h
    obtain ⟨h3, h4⟩ := consecutive_sorted l _ _ (fun d hd => hz d (by simp [hd])) h2
    have := hz c (by simp)
    constructor
    · rw [List.pairwise_cons]
      refine ⟨fun d hd => ?_, h3⟩
      have := h4 d hd
      omega
    · intro d hd
      rcases List.mem_cons.1 hd with rfl | hd
      · omega
      · have := h4 d hd
        omega

theorem flatMap_filter_nil {α β : Type} {q : α → Bool} {f : α → List β} {l : List α} (h : ∀ x ∈ l, q x = false → f x = []) :
    l.flatMap f = (l.filter q).flatMap f := by
  induction l with
  | nil => rfl
  | cons x l ih =>
    rw [List.flatMap_cons, ih fun y hy => h y (by simp [hy])]
    cases hq : q x with
    | true => rw [List.filter_cons_of_pos hq, List.flatMap_cons]
    | false => rw [List.filter_cons_of_neg (by simp [hq]), h x (by simp) hq]; rfl

theorem order_data {file : Bytes} {tracks : List MovLayout} {l : List (Nat × Nat)} {a b : Nat} (hl : l.Perm (pieces tracks))
    (hc : Consecutive a l b) : (orderOf tracks).flatMap (pieceData file) = (file.drop a).take (b - a) := by
  have hz : ∀ c ∈ l, c.2 ≠ 0 := by
    intro c hc
    have := hl.mem_iff.1 hc
    simpa using (List.mem_filter.1 this).2
  obtain ⟨hs, _⟩ := consecutive_sorted l a b hz hc
  have hp : (((orderOf tracks).map fun c => (c.1, c.2.1)).filter fun c => c.2 ≠ 0).Perm l := by
    refine List.Perm.trans ?_ hl.symm
    refine List.Perm.filter _ ?_
    refine ((sortChunks_perm (tracks.flatMap trackPieces)).map _).trans ?_
    rw [List.map_flatMap]
    apply List.Perm.of_eq
    congr 1
    funext t
    simp [trackPieces]
  have hord : (orderOf tracks).Pairwise fun c d => c.1 ≤ d.1 := sortChunks_sorted _
  have e : ((orderOf tracks).map fun c => (c.1, c.2.1)).filter (fun c => c.2 ≠ 0) = l := by
    refine List.Perm.eq_of_pairwise (le := fun c d => c.1 ≤ d.1) ?_ ?_ (hs.imp fun h => Nat.le_of_lt h) hp
    · intro c d hcm hdm h1 h2
      have hcl := hp.mem_iff.1 hcm
      have heq : c.1 = d.1 := by omega
      have key : ∀ l : List (Nat × Nat), l.Pairwise (fun c d => c.1 < d.1) → ∀ c ∈ l, ∀ d ∈ l, c.1 = d.1 → c = d := by
        intro l
        induction l with
        | nil => intro _ c hc; simp at hc
        | cons x l ih =>
          intro hp c hc d hd e
          rw [List.pairwise_cons] at hp
          rcases List.mem_cons.1 hc with h | hc <;> rcases List.mem_cons.1 hd with h' | hd
          · rw [h, h']
          · have := hp.1 d hd; rw [h] at e; omega
          · have := hp.1 c hc; rw [h'] at e; omega
          · exact ih hp.2 c hc d hd e
      exact key l hs c hcl d hdm heq
    · refine List.Pairwise.filter _ ?_
      rw [List.pairwise_map]
      exact hord
  rw [← (consecutive_data file l a b hc).1, ← e, ← flatMap_filter_nil, List.flatMap_map]
  · rfl
  · intro c _ h0
    have : c.2 = 0 := by simpa using h0
    rw [this, List.take_zero]

/-! ### Writing the chunks -/

/-- Everything that belongs to these chunks was written. -/
def AllDone (order : List (Nat × Nat × Nat)) (files : TrackFiles) : Prop := ∀ c ∈ order, files c.2.2 = some []

theorem write_chunks {file : Bytes} {order : List (Nat × Nat × Nat)} : ∀ {s : MovRebuild},
    (∀ c ∈ order, c.1 + c.2.1 ≤ file.length) →
    (∀ c ∈ order, s.files c.2.2 = some ((order.filter fun d => d.2.2 == c.2.2).flatMap (pieceData file))) →
    ∃ fl, order.foldl writeChunks4 s = ⟨s.out ++ order.flatMap (pieceData file), crc32 (order.flatMap (pieceData file)) s.crc, fl⟩ ∧
      (∀ c ∈ order, fl c.2.2 = some []) ∧ ∀ k, s.files k = some [] → fl k = some [] := by
  induction order with
  | nil =>
    intro s _ _
    refine ⟨s.files, ?_, by simp, fun k h => h⟩
    simp only [List.foldl_nil, List.flatMap_nil, List.append_nil]
    cases s
    simp [crc32]
  | cons c order ih =>
    intro s hin hfl
    have h0 := hfl c (by simp)
    rw [List.filter_cons_of_pos (by simp), List.flatMap_cons] at h0
    have hlen : (pieceData file c).length = c.2.1 := by
      have := hin c (by simp)
      simp [pieceData]; omega
    have hw : writeChunks4 s c = ⟨s.out ++ pieceData file c, crc32 (pieceData file c) s.crc,
        s.files.set c.2.2 ((order.filter fun d => d.2.2 == c.2.2).flatMap (pieceData file))⟩ := by
      unfold writeChunks4
      simp only [h0, Option.getD_some]
      rw [← hlen, List.take_left, List.drop_left]
    have hst : ∀ d ∈ order, (writeChunks4 s c).files d.2.2 = some ((order.filter fun e => e.2.2 == d.2.2).flatMap (pieceData file)) := by
      intro d hd
      rw [hw]
      simp only [TrackFiles.set]
      split
      · rename_i e; rw [e]
      · rename_i e
        rw [hfl d (by simp [hd]), List.filter_cons_of_neg (by simpa using fun h => e h.symm)]
    obtain ⟨fl, h1, h2, h3⟩ := ih (s := writeChunks4 s c) (fun d hd => hin d (by simp [hd])) hst
    refine ⟨fl, ?_, ?_, ?_⟩
    · rw [List.foldl_cons, h1, hw, List.flatMap_cons, crc32_append, List.append_assoc]
    · intro d hd
      rcases List.mem_cons.1 hd with rfl | hd
      · by_cases hex : ∃ e ∈ order, e.2.2 = d.2.2
        · obtain ⟨e, he, hee⟩ := hex
          rw [← hee]
          exact h2 e he
        · refine h3 _ ?_
          rw [hw]
          simp only [TrackFiles.set, if_pos]
          rw [List.filter_eq_nil_iff.2]
          · rfl
          · intro e he
            simp only [beq_iff_eq]
            exact fun h => hex ⟨e, he, h⟩
      · exact h2 d hd
    · intro k hk
      refine h3 k ?_
      rw [hw]
      simp only [TrackFiles.set]
      split
      · rename_i hkc
        subst hkc
        rw [h0] at hk
        injection hk with hk
        rw [List.append_eq_nil_iff] at hk
        rw [hk.2]
      · exact hk

theorem write_done {order all : List (Nat × Nat × Nat)} : ∀ {s : MovRebuild}, (∀ c ∈ order, c ∈ all) → AllDone all s.files →
    ∃ fl, order.foldl writeChunks4 s = ⟨s.out, s.crc, fl⟩ ∧ AllDone all fl := by
  induction order with
  | nil => intro s _ h; exact ⟨s.files, rfl, h⟩
  | cons c order ih =>
    intro s hsub h
    have h0 := h c (hsub c (by simp))
    have hw : writeChunks4 s c = ⟨s.out, s.crc, s.files.set c.2.2 []⟩ := by
      unfold writeChunks4
      simp [h0, crc32]
    obtain ⟨fl, h1, h2⟩ := ih (s := writeChunks4 s c) (fun d hd => hsub d (by simp [hd])) (by
      rw [hw]
      intro d hd
      simp only [TrackFiles.set]
      split
      · rfl
      · exact h d hd)
    exact ⟨fl, by rw [List.foldl_cons, h1, hw], h2⟩

/-! ### Rebuilding -/

def rebuildHow (ty : Bytes) : MovHow := if ty = mSRSF ∨ ty = mSRST then .skip else if ty = aMdat then .child else .read

def rebuildStep (order : List (Nat × Nat × Nat)) (s : MovRebuild) (p : MovPart) : Res MovRebuild :=
  match p with
  | .enter form type n => .ok (order.foldl writeChunks4
      { s with out := s.out ++ movHeader form type n, crc := crc32 (movHeader form type n) s.crc })
  | .leaf form type data =>
    if type = mSRSF ∨ type = mSRST then .ok s
    else .ok { s with out := s.out ++ (movHeader form type data.length ++ data), crc := crc32 (movHeader form type data.length ++ data) s.crc }

theorem rebuild_step {order : List (Nat × Nat × Nat)} {p : MovPart} (hp : Suits rebuildHow p) (total pos : Nat) (s : MovRebuild) :
    mp4RebuildItem order s (p.item rebuildHow total pos) = rebuildStep order s p := by
  cases p with
  | enter form type n =>
    have ht : type = aMdat := by
      have := hp.2.2
      unfold rebuildHow at this
      split at this
      · simp at this
      · split at this
        · assumption
        · simp at this
    subst ht
    rfl
  | leaf form type data =>
    obtain ⟨d, hd⟩ : ∃ d, d = (MovPart.leaf form type data).data rebuildHow := ⟨_, rfl⟩
    have e : mp4RebuildItem order s ((MovPart.leaf form type data).item rebuildHow total pos) =
        if type = mSRSF ∨ type = mSRST then .ok s
        else if type = aMdat then .ok (order.foldl writeChunks4
            { s with out := s.out ++ movHeader form type data.length, crc := crc32 (movHeader form type data.length) s.crc })
        else .ok { s with out := (s.out ++ movHeader form type data.length) ++ d, crc := crc32 d (crc32 (movHeader form type data.length) s.crc) } := by
      subst hd; rfl
    rw [e]
    unfold rebuildStep
    dsimp only
    split
    · rfl
    · rename_i hn
      have hm : ¬ type = aMdat := by
        intro hm
        have := hp.2.2
        unfold rebuildHow at this
        rw [if_neg hn, if_pos hm] at this
        exact this rfl
      rw [if_neg hm]
      have : d = data := by
        rw [hd]
        refine if_neg ?_
        unfold rebuildHow
        rw [if_neg hn, if_neg hm]
        simp
      rw [this, List.append_assoc, crc32_append]

theorem rebuild_own4 {order : List (Nat × Nat × Nat)} {s : MovRebuild} {f : Bytes} {ds : List Bytes} :
    (ownAtoms f ds).foldlM (rebuildStep order) s = .ok s := by
  have : ∀ l : List MovPart, (∀ p ∈ l, p ∈ ownAtoms f ds) → l.foldlM (rebuildStep order) s = .ok s := by
    intro l
    induction l with
    | nil => intro _; rfl
    | cons p l ih =>
      intro h
      have h1 : rebuildStep order s p = .ok s := by
        rcases ownAtoms_mem (h p (by simp)) with rfl | ⟨d, _, rfl⟩
        · unfold rebuildStep; dsimp only; rw [if_pos (Or.inl rfl)]
        · unfold rebuildStep; dsimp only; rw [if_pos (Or.inr rfl)]
      rw [List.foldlM_cons, h1, ok_bind]
      exact ih fun q hq => h q (by simp [hq])
  exact this _ fun _ h => h

theorem rebuild_rest {order : List (Nat × Nat × Nat)} {f : Bytes} {ds : List Bytes} {tops : List MovTop} : ∀ {s : MovRebuild},
    (∀ t ∈ tops, t.type ∉ ownTypes) → (∀ t ∈ tops, t.type = mdatType → t.body = [] ∧ AllDone order s.files) →
    ∃ fl, (tops.flatMap (srsTop (ownAtoms f ds))).foldlM (rebuildStep order) s =
      .ok ⟨s.out ++ topBytes tops, crc32 (topBytes tops) s.crc, fl⟩ ∧ ((∀ t ∈ tops, t.type ≠ mdatType) → fl = s.files) := by
  induction tops with
  | nil =>
    intro s _ _
    refine ⟨s.files, ?_, fun _ => rfl⟩
    show Except.ok s = _
    cases s
    simp [topBytes, flatten, movBytes, crc32]
  | cons t ts ih =>
    intro s hown hm
    rw [List.flatMap_cons, List.foldlM_append]
    by_cases hty : t.type = mdatType
    · have es : srsTop (ownAtoms f ds) t = ownAtoms f ds ++ [.enter t.form t.type t.body.length] := by
        unfold srsTop; rw [if_pos hty]
      rw [es]
      obtain ⟨hb, hd⟩ := hm t (by simp) hty
      obtain ⟨fl, h1, h2⟩ := write_done (order := order) (all := order)
        (s := { s with out := s.out ++ movHeader t.form t.type t.body.length, crc := crc32 (movHeader t.form t.type t.body.length) s.crc })
        (fun c h => h) hd
      have h3 : (ownAtoms f ds ++ [MovPart.enter t.form t.type t.body.length]).foldlM (rebuildStep order) s =
          .ok ⟨s.out ++ movHeader t.form t.type t.body.length, crc32 (movHeader t.form t.type t.body.length) s.crc, fl⟩ := by
        rw [List.foldlM_append, rebuild_own4, ok_bind, List.foldlM_cons]
        unfold rebuildStep
        dsimp only
        rw [h1]
        rfl
      rw [h3, ok_bind]
      obtain ⟨fl', h4, h5⟩ := @ih ⟨s.out ++ movHeader t.form t.type t.body.length, crc32 (movHeader t.form t.type t.body.length) s.crc, fl⟩
        (fun u hu => hown u (by simp [hu])) (fun u hu he => ⟨(hm u (by simp [hu]) he).1, h2⟩)
      refine ⟨fl', ?_, fun h => absurd hty (h t (by simp))⟩
      rw [h4, topBytes_cons, hb]
      simp only [List.nil_append, List.append_assoc, crc32_append]
    · have es : srsTop (ownAtoms f ds) t = [topLeaf t] := by unfold srsTop; rw [if_neg hty]
      rw [es]
      have ho := hown t (by simp)
      simp only [ownTypes, List.mem_cons, List.not_mem_nil, or_false, not_or] at ho
      have h3 : [topLeaf t].foldlM (rebuildStep order) s =
          .ok ⟨s.out ++ (movHeader t.form t.type t.body.length ++ t.body), crc32 (movHeader t.form t.type t.body.length ++ t.body) s.crc, s.files⟩ := by
        rw [List.foldlM_cons]
        unfold rebuildStep topLeaf
        dsimp only
        rw [if_neg (fun h => h.elim ho.1 ho.2)]
        rfl
      rw [h3, ok_bind]
      obtain ⟨fl', h4, h5⟩ := @ih ⟨s.out ++ (movHeader t.form t.type t.body.length ++ t.body),
          crc32 (movHeader t.form t.type t.body.length ++ t.body) s.crc, s.files⟩
        (fun u hu => hown u (by simp [hu])) (fun u hu he => hm u (by simp [hu]) he)
      refine ⟨fl', ?_, fun h => h5 fun u hu => h u (by simp [hu])⟩
      rw [h4, topBytes_cons]
      simp only [List.append_assoc, crc32_append]

end Rescene
