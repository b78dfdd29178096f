import Verif.Lemmas.MovTables
/-
Profiling MP4 files: the tracks.
-/
namespace Rescene
open Spec

/-! ### One track -/

/-- All chunks are inside the file. -/
def Inside (file : Bytes) (t : MovLayout) : Prop := ∀ c ∈ t.chunks, c.1 + c.2.sum ≤ file.length

def chunkData (file : Bytes) (c : Nat × List Nat) : Bytes := (file.drop c.1).take c.2.sum

theorem layoutData_eq (file : Bytes) (t : MovLayout) : layoutData file t = t.chunks.flatMap (chunkData file) := rfl

theorem chunkData_length {file : Bytes} {c : Nat × List Nat} (h : c.1 + c.2.sum ≤ file.length) :
    (chunkData file c).length = c.2.sum := by
  simp [chunkData]; omega

theorem take_slice {l : List (Nat × List Nat)} {c : Nat × List Nat} {cs : List (Nat × List Nat)} :
    (((l ++ c :: cs).flatMap (·.2)).drop (l.flatMap (·.2)).length).take c.2.length = c.2 := by
  rw [List.flatMap_append, List.drop_left, List.flatMap_cons, List.take_left]

theorem movSignature_go {file : Bytes} {full : MovTables} {t : MovLayout} (ht : TablesOf full t) (hin : Inside file t)
    (hbig : file.length < 2 ^ 63) {cs : List (Nat × List Nat)} : ∀ {l : List (Nat × List Nat)} {sig : Bytes},
    t.chunks = l ++ cs → sig.length ≤ 256 →
    movSignature file full (cs.map (·.1)) l.length (l.flatMap (·.2)).length sig =
      .ok ((sig ++ cs.flatMap (chunkData file)).take 256) := by
  induction cs with
  | nil =>
    intro l sig _ hs
    simp only [List.map_nil, movSignature, List.flatMap_nil, List.append_nil]
    rw [List.take_of_length_le hs]
  | cons c cs ih =>
    intro l sig e hs
    have hc := hin c (by rw [e]; simp)
    have hlen : samplesIn full.lens l.length = .ok c.2.length := ht.lens _ _ (by rw [e]; simp)
    have hl := chunkData_length hc
    simp only [List.map_cons, movSignature]
    rw [hlen, ok_bind, ht.sizes, e, take_slice]
    have hseek : seekTo file c.1 c.2.sum = .ok (chunkData file c) := by
      unfold seekTo
      rw [if_pos (by omega)]
      rfl
    rw [hseek, ok_bind]
    have hsig : sig ++ (chunkData file c).take (min 256 (sig.length + c.2.sum) - sig.length) = (sig ++ chunkData file c).take 256 := by
      rw [List.take_append, List.take_of_length_le hs]
      congr 1
      by_cases h : sig.length + c.2.sum ≤ 256
      · rw [List.take_of_length_le (by rw [hl]; omega), List.take_of_length_le (by rw [hl]; omega)]
      · rw [show min 256 (sig.length + c.2.sum) - sig.length = 256 - sig.length by omega]
    rw [hsig, List.flatMap_cons, ← List.append_assoc]
    split
    · rename_i h256
      rw [List.take_append_of_le_length (l₂ := cs.flatMap (chunkData file))]
      · rfl
      · simp only [List.length_take] at h256; omega
    · rename_i h256
      have hshort : (sig ++ chunkData file c).length ≤ 256 := by
        simp only [List.length_take] at h256; omega
      rw [List.take_of_length_le hshort]
      have := ih (l := l ++ [c]) (sig := sig ++ chunkData file c) (by simp [e]) hshort
      simpa using this

theorem movSignature_ok {file : Bytes} {full : MovTables} {t : MovLayout} (ht : TablesOf full t) (hin : Inside file t)
    (hbig : file.length < 2 ^ 63) :
    movSignature file full full.offsets 0 0 [] = .ok ((layoutData file t).take 256) := by
  rw [ht.offsets, layoutData_eq]
  have := movSignature_go ht hin hbig (cs := t.chunks) (l := []) (sig := []) rfl (by simp)
  simpa using this

theorem movChunks_go {full : MovTables} {t : MovLayout} (ht : TablesOf full t) {cs : List (Nat × List Nat)} :
    ∀ {l : List (Nat × List Nat)}, t.chunks = l ++ cs →
    movChunks full (cs.map (·.1)) l.length (l.flatMap (·.2)).length = .ok (cs.map fun c => ⟨c.1, c.2⟩) := by
  induction cs with
  | nil => intro l _; rfl
  | cons c cs ih =>
    intro l e
    have hlen : samplesIn full.lens l.length = .ok c.2.length := ht.lens _ _ (by rw [e]; simp)
    simp only [List.map_cons, movChunks]
    have := ih (l := l ++ [c]) (by simp [e])
    simp only [List.length_append, List.length_singleton, List.flatMap_append, List.flatMap_cons, List.flatMap_nil,
      List.append_nil] at this
    rw [hlen, ok_bind, ht.sizes, e, take_slice, this]
    rfl

theorem movChunks_ok {full : MovTables} {t : MovLayout} (ht : TablesOf full t) :
    movChunks full full.offsets 0 0 = .ok (t.chunks.map fun c => ⟨c.1, c.2⟩) := by
  rw [ht.offsets]
  have := movChunks_go ht (cs := t.chunks) (l := []) rfl
  simpa using this

theorem layout_length {file : Bytes} {t : MovLayout} (hin : Inside file t) :
    (layoutData file t).length = (t.chunks.flatMap (·.2)).sum := by
  rw [layoutData_eq]
  have : ∀ l : List (Nat × List Nat), (∀ c ∈ l, c.1 + c.2.sum ≤ file.length) →
      (l.flatMap (chunkData file)).length = (l.flatMap (·.2)).sum := by
    intro l
    induction l with
    | nil => intro _; rfl
    | cons c l ih =>
      intro h
      rw [List.flatMap_cons, List.flatMap_cons, List.length_append, List.sum_append, chunkData_length (h c (by simp)),
        ih fun d hd => h d (by simp [hd])]
  exact this _ hin

/-- A profiled track. -/
structure TrackIs (file : Bytes) (m : MovTrack) (t : MovLayout) : Prop where
  tables : TablesOf m.tables t
  sig : m.sig = (layoutData file t).take 256
  length : m.dataLength = (layoutData file t).length

def allTables (tb : MovTables) : Prop := tb.offsets ≠ [] ∧ tb.lens ≠ [] ∧ tb.sizes ≠ []

instance (tb : MovTables) : Decidable (allTables tb) := by unfold allTables; infer_instance

/-- The track after these atoms. -/
def trackAfter (file : Bytes) (t : MovLayout) (tb : MovTables) : MovTrack :=
  if allTables tb then ⟨tb, (layoutData file t).take 256, tb.sizes.sum⟩ else ⟨tb, [], 0⟩

theorem trackAfter_tables (file : Bytes) (t : MovLayout) (tb : MovTables) : (trackAfter file t tb).tables = tb := by
  unfold trackAfter; split <;> rfl

theorem trackAfter_full {file : Bytes} {t : MovLayout} {full : MovTables} (ht : TablesOf full t) (hin : Inside file t) :
    TrackIs file (trackAfter file t full) t := by
  have hlen := layout_length hin
  unfold trackAfter
  split
  · exact ⟨ht, rfl, by dsimp only; rw [ht.sizes, hlen]⟩
  · rename_i hn
    have hempty : layoutData file t = [] := by
      by_cases h1 : full.sizes = []
      · rw [ht.sizes] at h1
        rw [h1] at hlen
        exact List.length_eq_zero_iff.1 (by simpa using hlen)
      · by_cases h2 : full.offsets = []
        · rw [ht.offsets] at h2
          rw [layoutData_eq, List.map_eq_nil_iff.1 h2]
          rfl
        · have h3 : full.lens = [] := by
            apply Classical.byContradiction
            intro h3
            exact hn ⟨h2, h3, h1⟩
          cases hc : t.chunks with
          | nil => rw [layoutData_eq, hc]; rfl
          | cons c cs =>
            have := ht.lens 0 c (by rw [hc]; rfl)
            rw [h3] at this
            simp [samplesIn] at this
    exact ⟨ht, by rw [hempty]; rfl, by rw [hempty]; rfl⟩

/-! ### Steps -/

theorem movGet_last {α : Type} {T : List (Nat × α)} {id : Nat} {t : α} (h : id ∉ T.map (·.1)) :
    movGet (T ++ [(id, t)]) id = some t := by
  unfold movGet
  rw [List.find?_append, List.find?_eq_none.2]
  · simp
  · intro x hx
    simp only [beq_iff_eq]
    rintro rfl
    exact h (List.mem_map.2 ⟨x, hx, rfl⟩)

theorem movSet_last {α : Type} {T : List (Nat × α)} {id : Nat} {t t' : α} (h : id ∉ T.map (·.1)) :
    movSet (T ++ [(id, t)]) id t' = T ++ [(id, t')] := by
  unfold movSet
  rw [List.map_append]
  congr 1
  · rw [List.map_congr_left (g := fun x => x)]
    · simp
    · intro x hx
      rw [if_neg]
      rintro rfl
      exact h (List.mem_map.2 ⟨x, hx, rfl⟩)
  · simp

theorem movGet_none {α : Type} {T : List (Nat × α)} {id : Nat} : movGet T id = none ↔ id ∉ T.map (·.1) := by
  unfold movGet
  rw [Option.map_eq_none_iff, List.find?_eq_none]
  constructor
  · intro h hm
    obtain ⟨x, hx, rfl⟩ := List.mem_map.1 hm
    exact h x hx (by simp)
  · intro h x hx
    simp only [beq_iff_eq]
    rintro rfl
    exact h (List.mem_map.2 ⟨x, hx, rfl⟩)

/-- A track with all tables has been processed. -/
def Settled (st : MovState) : Prop :=
  st.current = none ∨ ∃ id T t, st.tracks = T ++ [(id, t)] ∧ id ∉ T.map (·.1) ∧ st.current = some id ∧
    (allTables t.tables → st.processed = true)

def isTable (l : Bytes × Bytes) : Bool := l.1 == tkhdType || isOff l || isRun l || isSize l

theorem movStep_noop {file : Bytes} {st : MovState} {l : Bytes × Bytes} (hs : Settled st) (h : isTable l = false) :
    movStep file st l = .ok st := by
  simp only [isTable, Bool.or_eq_false_iff, beq_eq_false_iff_ne] at h
  obtain ⟨⟨⟨h0, h1⟩, h2⟩, h3⟩ := h
  unfold movStep movTracksStep
  rw [if_neg (show ¬ l.1 = aTkhd from h0)]
  dsimp only
  rw [movTable_other h1 h2 h3, ok_bind]
  rcases hs with hc | ⟨id, T, t, ht, hid, hc, hp⟩
  · simp only [hc, pure_eq_ok, ok_bind, movFinish]
  · have hg : movGet st.tracks id = some t := by rw [ht]; exact movGet_last hid
    obtain ⟨tracks, current, processed⟩ := st
    dsimp only at ht hc hp hg
    subst hc
    simp only [Option.bind_some, hg, Option.map_some, pure_eq_ok, ok_bind]
    have : movSet tracks id { t with tables := t.tables } = tracks := by rw [ht]; exact movSet_last hid
    rw [this]
    unfold movFinish
    simp only [Option.bind_some, hg]
    rw [if_neg]
    · rfl
    · rintro ⟨hp', ha⟩
      rw [hp ha] at hp'
      simp at hp'

theorem movFinish_settled {file : Bytes} {st st' : MovState} (h : movFinish file st = .ok st')
    (hs : st.current = none ∨ ∃ id T t, st.tracks = T ++ [(id, t)] ∧ id ∉ T.map (·.1) ∧ st.current = some id) : Settled st' := by
  obtain ⟨tracks, current, processed⟩ := st
  unfold movFinish at h
  rcases hs with hc | ⟨id, T, t, ht, hid, hc⟩
  · dsimp only at hc
    subst hc
    dsimp only at h
    injection h with h
    subst h
    exact Or.inl rfl
  · dsimp only at hc ht
    subst hc
    subst ht
    simp only [Option.bind_some, movGet_last hid] at h
    split at h
    · rename_i hcond
      simp only [bind_eq_ok] at h
      obtain ⟨sig, _, h⟩ := h
      injection h with h
      subst h
      exact Or.inr ⟨id, T, _, movSet_last hid, hid, rfl, fun _ => rfl⟩
    · rename_i hcond
      injection h with h
      subst h
      refine Or.inr ⟨id, T, t, rfl, hid, rfl, fun ha => ?_⟩
      dsimp only at hcond ⊢
      cases processed with
      | true => rfl
      | false => exact absurd ⟨rfl, ha⟩ hcond

theorem movStep_settled {file : Bytes} {st st' : MovState} {l : Bytes × Bytes} (hs : Settled st)
    (h : movStep file st l = .ok st') : Settled st' := by
  unfold movStep at h
  rw [bind_eq_ok] at h
  obtain ⟨s1, h1, h2⟩ := h
  refine movFinish_settled h2 ?_
  unfold movTracksStep at h1
  split at h1
  · simp only [bind_eq_ok] at h1
    obtain ⟨id, _, h1⟩ := h1
    split at h1
    · simp at h1
    · rename_i hn
      injection h1 with h1
      subst h1
      refine Or.inr ⟨id, st.tracks, {}, rfl, ?_, rfl⟩
      rw [← movGet_none]
      simpa using hn
  · simp only [bind_eq_ok] at h1
    obtain ⟨tb, _, h1⟩ := h1
    obtain ⟨tracks, current, processed⟩ := st
    rcases hs with hc | ⟨id, T, t, ht, hid, hc, _⟩
    · dsimp only at hc
      subst hc
      dsimp only at h1
      injection h1 with h1
      subst h1
      exact Or.inl rfl
    · dsimp only at hc ht
      subst hc
      subst ht
      simp only [Option.bind_some, movGet_last hid] at h1
      cases tb with
      | none =>
        dsimp only at h1
        injection h1 with h1
        subst h1
        exact Or.inr ⟨id, T, t, rfl, hid, rfl⟩
      | some tb =>
        dsimp only at h1
        injection h1 with h1
        subst h1
        exact Or.inr ⟨id, T, _, movSet_last hid, hid, rfl⟩

/-! ### Sections -/

/-- The state in a section. -/
def stateIn (file : Bytes) (T : List (Nat × MovTrack)) (t : MovLayout) (tb : MovTables) : MovState :=
  ⟨T ++ [(t.id, trackAfter file t tb)], some t.id, decide (allTables tb)⟩

theorem tablesAfter_mono {full : MovTables} {done : List (Bytes × Bytes)} {l : Bytes × Bytes}
    (h : allTables (tablesAfter full done)) : tablesAfter full (done ++ [l]) = tablesAfter full done := by
  obtain ⟨h1, h2, h3⟩ := h
  have a1 : done.any isOff = true := by
    apply Classical.byContradiction; intro hn; exact h1 (by simp only [tablesAfter]; rw [if_neg hn])
  have a2 : done.any isRun = true := by
    apply Classical.byContradiction; intro hn; exact h2 (by simp only [tablesAfter]; rw [if_neg hn])
  have a3 : done.any isSize = true := by
    apply Classical.byContradiction; intro hn; exact h3 (by simp only [tablesAfter]; rw [if_neg hn])
  rw [tablesAfter_snoc]
  simp only [tablesAfter, a1, a2, a3, Bool.true_or]

theorem tablesAfter_eq_full {full : MovTables} {done : List (Bytes × Bytes)}
    (h : allTables (tablesAfter full done)) : tablesAfter full done = full := by
  obtain ⟨h1, h2, h3⟩ := h
  have a1 : done.any isOff = true := by
    apply Classical.byContradiction; intro hn; exact h1 (by simp only [tablesAfter]; rw [if_neg hn])
  have a2 : done.any isRun = true := by
    apply Classical.byContradiction; intro hn; exact h2 (by simp only [tablesAfter]; rw [if_neg hn])
  have a3 : done.any isSize = true := by
    apply Classical.byContradiction; intro hn; exact h3 (by simp only [tablesAfter]; rw [if_neg hn])
  simp only [tablesAfter, a1, a2, a3, if_true]

theorem section_step {file : Bytes} {T : List (Nat × MovTrack)} {t : MovLayout} {full : MovTables}
    {rest done more : List (Bytes × Bytes)} {l : Bytes × Bytes} (hid : t.id ∉ T.map (·.1)) (hd : Decoded rest full)
    (ht : TablesOf full t) (hin : Inside file t) (hbig : file.length < 2 ^ 63) (e : rest = done ++ l :: more)
    (hl : l.1 ≠ tkhdType) :
    movStep file (stateIn file T t (tablesAfter full done)) l = .ok (stateIn file T t (tablesAfter full (done ++ [l]))) := by
  have hstep := tables_step hd e
  unfold movStep movTracksStep
  rw [if_neg (show ¬ l.1 = aTkhd from hl)]
  simp only [stateIn, Option.bind_some, movGet_last hid, Option.map_some, trackAfter_tables, hstep, ok_bind, pure_eq_ok,
    movSet_last hid, movFinish]
  by_cases hp : allTables (tablesAfter full done)
  · rw [if_neg (by simp [hp]), tablesAfter_mono hp]
    congr 4
    simp only [trackAfter, if_pos hp]
  · have h0 : trackAfter file t (tablesAfter full done) = ⟨tablesAfter full done, [], 0⟩ := by
      unfold trackAfter; rw [if_neg hp]
    rw [h0]
    by_cases hq : allTables (tablesAfter full (done ++ [l]))
    · rw [if_pos ⟨by simpa using hp, hq⟩]
      have ef := tablesAfter_eq_full hq
      rw [ef] at hq ⊢
      rw [movSignature_ok ht hin hbig, ok_bind]
      simp only [trackAfter, hq, decide_true, if_true]
    · rw [if_neg (by rintro ⟨_, h⟩; exact hq h)]
      simp only [trackAfter, hp, hq, if_false]

theorem section_fold {file : Bytes} {T : List (Nat × MovTrack)} {t : MovLayout} {full : MovTables}
    {rest : List (Bytes × Bytes)} (hid : t.id ∉ T.map (·.1)) (hd : Decoded rest full) (ht : TablesOf full t)
    (hin : Inside file t) (hbig : file.length < 2 ^ 63) (hl : ∀ l ∈ rest, l.1 ≠ tkhdType) {more : List (Bytes × Bytes)} :
    ∀ {done : List (Bytes × Bytes)}, rest = done ++ more →
    more.foldlM (movStep file) (stateIn file T t (tablesAfter full done)) = .ok (stateIn file T t full) := by
  induction more with
  | nil =>
    intro done e
    rw [List.append_nil] at e
    subst e
    rw [List.foldlM_nil, tablesAfter_all hd]
    rfl
  | cons l more ih =>
    intro done e
    rw [List.foldlM_cons, section_step hid hd ht hin hbig e (hl l (by rw [e]; simp)), ok_bind]
    exact ih (by simp [e])

theorem trackHeader_read {d : Bytes} {id : Nat} (h : TrackHeader d id) : unpackBeAt 4 d 12 = .ok id := by
  obtain ⟨hi, a, b, ha, rfl⟩ := h
  exact unpackBeAt_append a b ha (by omega)

theorem describes_fold {file : Bytes} {st : MovState} {t : MovLayout} {ls : List (Bytes × Bytes)} (h : Describes ls t)
    (hid : t.id ∉ st.tracks.map (·.1)) (hin : Inside file t) (hbig : file.length < 2 ^ 63) :
    ∃ m p, ls.foldlM (movStep file) st = .ok ⟨st.tracks ++ [(t.id, m)], some t.id, p⟩ ∧ TrackIs file m t := by
  obtain ⟨d, rest, full, rfl, hh, hl, hd, ht⟩ := describes_decoded h
  refine ⟨trackAfter file t full, decide (allTables full), ?_, trackAfter_full ht hin⟩
  have h1 : movStep file st (tkhdType, d) = .ok (stateIn file st.tracks t (tablesAfter full [])) := by
    unfold movStep movTracksStep
    rw [if_pos (show tkhdType = aTkhd from rfl)]
    simp only [trackHeader_read hh, ok_bind]
    rw [if_neg (by rw [movGet_none.2 hid]; simp)]
    simp only [pure_eq_ok, ok_bind, movFinish, Option.bind_some, movGet_last hid]
    rw [if_neg (by simp)]
    simp [stateIn, tablesAfter, trackAfter, allTables]
  rw [List.foldlM_cons, h1, ok_bind]
  exact section_fold hid hd ht hin hbig hl (done := []) rfl

/-- The tracks one by one. -/
def AreTracks (file : Bytes) : List (Nat × MovTrack) → List MovLayout → Prop
  | [], [] => True
  | (n, m) :: l, t :: ts => n = t.id ∧ TrackIs file m t ∧ AreTracks file l ts
  | _, _ => False

theorem AreTracks.keys {file : Bytes} : ∀ {l : List (Nat × MovTrack)} {ts : List MovLayout}, AreTracks file l ts →
    l.map (·.1) = ts.map (·.id)
  | [], [], _ => rfl
  | (n, m) :: l, t :: ts, h => by
    obtain ⟨h1, _, h3⟩ := h
    simp [h1, AreTracks.keys h3]
  | [], _ :: _, h => h.elim
  | _ :: _, [], h => h.elim

theorem sections_fold {file : Bytes} (hbig : file.length < 2 ^ 63) {tracks : List MovLayout} :
    ∀ {st : MovState} {ls : List (Bytes × Bytes)}, Sections ls tracks → (∀ t ∈ tracks, t.id ∉ st.tracks.map (·.1)) →
    tracks.Pairwise (fun a b => a.id ≠ b.id) → (∀ t ∈ tracks, Inside file t) →
    ∃ L c p, ls.foldlM (movStep file) st = .ok ⟨st.tracks ++ L, c, p⟩ ∧ AreTracks file L tracks := by
  induction tracks with
  | nil =>
    intro st ls h _ _ _
    have : ls = [] := h
    subst this
    exact ⟨[], st.current, st.processed, by simp [pure_eq_ok], trivial⟩
  | cons t ts ih =>
    rintro st ls ⟨s, rest, rfl, hd, hs⟩ hid hp hin
    rw [List.pairwise_cons] at hp
    obtain ⟨m, p, h1, h2⟩ := describes_fold hd (hid t (by simp)) (hin t (by simp)) hbig
    obtain ⟨L, c, p', h3, h4⟩ := ih (st := ⟨st.tracks ++ [(t.id, m)], some t.id, p⟩) hs (by
      intro q hq
      simp only [List.map_append, List.map_cons, List.map_nil, List.mem_append, List.mem_singleton, not_or]
      exact ⟨hid q (by simp [hq]), fun e => hp.1 q hq e.symm⟩) hp.2 (fun q hq => hin q (by simp [hq]))
    refine ⟨(t.id, m) :: L, c, p', ?_, rfl, h2, h4⟩
    rw [List.foldlM_append, h1, ok_bind, h3]
    simp

theorem noop_fold {file : Bytes} {st : MovState} (hs : Settled st) : ∀ {ls : List (Bytes × Bytes)},
    (∀ l ∈ ls, isTable l = false) → ls.foldlM (movStep file) st = .ok st
  | [], _ => rfl
  | l :: ls, h => by
    rw [List.foldlM_cons, movStep_noop hs (h l (by simp)), ok_bind]
    exact noop_fold hs fun q hq => h q (by simp [hq])

theorem tracks_fold {file : Bytes} (hbig : file.length < 2 ^ 63) {tracks : List MovLayout} {ls : List (Bytes × Bytes)}
    (h : HasTracks ls tracks) (hin : ∀ t ∈ tracks, Inside file t) :
    ∃ L c p, ls.foldlM (movStep file) {} = .ok ⟨L, c, p⟩ ∧ AreTracks file L tracks := by
  obtain ⟨⟨lead, rest, rfl, hl, hs⟩, hd⟩ := h
  have h0 : lead.foldlM (movStep file) {} = .ok ({} : MovState) := by
    refine noop_fold (Or.inl rfl) fun l hl' => ?_
    have := hl l hl'
    simp only [List.mem_cons, List.not_mem_nil, or_false, not_or] at this
    simp [isTable, isOff, isRun, isSize, this]
  rw [List.foldlM_append, h0, ok_bind]
  obtain ⟨L, c, p, h1, h2⟩ := sections_fold (file := file) hbig (st := {}) hs (by simp) hd hin
  exact ⟨L, c, p, by simpa using h1, h2⟩

end Rescene
