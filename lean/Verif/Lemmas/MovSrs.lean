import Verif.Lemmas.MovProfile
import Verif.Lemmas.AviSrs
/-
Creating and loading SRS files of MP4 samples.
-/
namespace Rescene
open Spec

/-- Loops that use only the parts. -/
theorem items_fold {σ : Type} {how : Bytes → MovHow} {f : σ → MovItem → Res σ} {g : σ → MovPart → Res σ} {total : Nat}
    {parts : List MovPart} (h : ∀ p ∈ parts, ∀ pos s, f s (p.item how total pos) = g s p) : ∀ {pos : Nat} {s : σ},
    (movItems how total pos parts).foldlM f s = parts.foldlM g s := by
  induction parts with
  | nil => intro pos s; rfl
  | cons p ps ih =>
    intro pos s
    rw [movItems, List.foldlM_cons, List.foldlM_cons, h p (by simp)]
    cases g s p with
    | error e => rfl
    | ok s' =>
      rw [ok_bind, ok_bind]
      exact ih fun q hq => h q (by simp [hq])

theorem movContainer_iff (type : Bytes) : movContainer type = true ↔ type ∈ containers := by
  simp only [movContainer, containers, Bool.or_eq_true, beq_iff_eq, List.mem_cons, List.not_mem_nil, or_false, or_assoc]
  rfl

theorem container_length {type : Bytes} (h : type ∈ containers) : type.length = 4 := by
  simp only [containers, List.mem_cons, List.not_mem_nil, or_false] at h
  rcases h with rfl | rfl | rfl | rfl | rfl <;> rfl

theorem container_not_table {type : Bytes} (h : type ∈ containers) (d : Bytes) : isTable (type, d) = false := by
  simp only [containers, List.mem_cons, List.not_mem_nil, or_false] at h
  rcases h with rfl | rfl | rfl | rfl | rfl <;> rfl

theorem container_ne_mdat {type : Bytes} (h : type ∈ containers) : type ≠ aMdat := by
  simp only [containers, List.mem_cons, List.not_mem_nil, or_false] at h
  rcases h with rfl | rfl | rfl | rfl | rfl <;> decide

/-! ### Profiling -/

def profileHow (crc : Bool) (ty : Bytes) : MovHow :=
  if movContainer ty then .child else if ty = aMdat then (if crc then .chunks else .skip) else .read

theorem profile_suits (crc : Bool) {p : MovPart} (h : p.Ok) : Suits (profileHow crc) p := by
  cases p with
  | enter form type n =>
    refine ⟨container_length h.1, h.2, ?_⟩
    unfold profileHow
    rw [if_pos ((movContainer_iff type).2 h.1)]
  | leaf form type data =>
    refine ⟨h.1, h.2.2, ?_⟩
    unfold profileHow
    rw [if_neg (fun hc => h.2.1 ((movContainer_iff type).1 hc))]
    split
    · cases crc <;> simp
    · simp

/-- Bytes that are not stream data. -/
def metaLength (parts : List MovPart) : Nat :=
  (parts.map fun p => match p with
    | .enter .. => p.bytes.length
    | .leaf form type data => (movHeader form type data.length).length + if type = mdatType then 0 else data.length).sum

theorem profile_parts {file : Bytes} {crc : Bool} {total : Nat} {parts : List MovPart} : ∀ {pos : Nat} {s : MovProfile} {st' : MovState},
    (∀ p ∈ parts, p.Ok) → Settled s.st → (leaves parts).foldlM (movStep file) s.st = .ok st' →
    ∃ c o m, (movItems (profileHow crc) total pos parts).foldlM (movProfileItem file) s = .ok ⟨c, o, m, st'⟩ ∧
      (crc = true → c = crc32 (movBytes parts) s.crc ∧ o = s.other + metaLength parts) := by
  induction parts with
  | nil =>
    intro pos s st' _ _ h
    simp only [leaves, List.filterMap_nil, List.foldlM_nil] at h
    injection h with h
    refine ⟨s.crc, s.other, s.mdat, ?_, fun _ => ⟨by simp only [movBytes, List.flatMap_nil, crc32, List.foldl_nil, BitVec.not_not], by simp [metaLength]⟩⟩
    subst h
    rfl
  | cons p ps ih =>
    intro pos s st' hok hs h
    have h1 := hok p (by simp)
    cases p with
    | enter form type n =>
      have hc := (movContainer_iff type).2 h1.1
      have hit : movProfileItem file s ((MovPart.enter form type n).item (profileHow crc) total pos) =
          .ok ⟨crc32 (movHeader form type n) s.crc, s.other + (movHeader form type n).length, s.mdat, s.st⟩ := by
        unfold movProfileItem
        simp only [MovPart.item, MovPart.atom, MovPart.data, hc, if_true]
        rw [movStep_noop hs (container_not_table h1.1 _), ok_bind]
        rfl
      obtain ⟨c, o, m, h2, h3⟩ := ih (pos := pos + (MovPart.enter form type n).bytes.length)
        (s := ⟨crc32 (movHeader form type n) s.crc, s.other + (movHeader form type n).length, s.mdat, s.st⟩) (st' := st')
        (fun q hq => hok q (by simp [hq])) hs h
      refine ⟨c, o, m, ?_, fun hcrc => ?_⟩
      · rw [movItems, List.foldlM_cons, hit, ok_bind, h2]
      · obtain ⟨e1, e2⟩ := h3 hcrc
        constructor
        · rw [e1, movBytes_cons, crc32_append]; rfl
        · rw [e2]; simp [metaLength, MovPart.bytes]; omega
    | leaf form type data =>
      have hnc : ¬ movContainer type = true := fun hc => h1.2.1 ((movContainer_iff type).1 hc)
      have hl : leaves (MovPart.leaf form type data :: ps) = (type, data) :: leaves ps := by simp [leaves]
      rw [hl, List.foldlM_cons] at h
      cases hst : movStep file s.st (type, data) with
      | error e => rw [hst, error_bind] at h; simp at h
      | ok st1 =>
        rw [hst, ok_bind] at h
        have hs1 := movStep_settled hs hst
        obtain ⟨d, hd⟩ : ∃ d, d = (MovPart.leaf form type data).data (profileHow crc) := ⟨_, rfl⟩
        have hdd : crc = true ∨ type ≠ aMdat → d = data := by
          intro hor
          rw [hd]
          have hne : profileHow crc type ≠ .skip := by
            unfold profileHow
            rw [if_neg hnc]
            split
            · rename_i hm
              rcases hor with hor | hor
              · rw [hor]; decide
              · exact absurd hm hor
            · decide
          simp only [MovPart.data]
          exact if_neg hne
        have hst' : movStep file s.st (type, d) = .ok st1 := by
          by_cases hm : type = aMdat
          · subst hm
            rw [movStep_noop hs rfl] at hst
            rw [movStep_noop hs rfl, hst]
          · rw [hdd (Or.inr hm), hst]
        obtain ⟨m1, hit⟩ : ∃ m1, movProfileItem file s ((MovPart.leaf form type data).item (profileHow crc) total pos) =
            .ok ⟨crc32 d (crc32 (movHeader form type data.length) s.crc),
              s.other + (movHeader form type data.length).length + (if type = aMdat then 0 else d.length), m1, st1⟩ := by
          unfold movProfileItem
          simp only [MovPart.item, MovPart.atom, hnc, Bool.false_eq_true, if_false, ← hd]
          by_cases hm : type = aMdat
          · rw [if_pos hm, if_pos hm]
            dsimp only
            rw [hst', ok_bind]
            exact ⟨_, rfl⟩
          · rw [if_neg hm, if_neg hm]
            dsimp only
            rw [hst', ok_bind]
            exact ⟨_, rfl⟩
        obtain ⟨c, o, m, h2, h3⟩ := ih (pos := pos + (MovPart.leaf form type data).bytes.length)
          (s := ⟨crc32 d (crc32 (movHeader form type data.length) s.crc),
              s.other + (movHeader form type data.length).length + (if type = aMdat then 0 else d.length), m1, st1⟩) (st' := st')
          (fun q hq => hok q (by simp [hq])) hs1 h
        refine ⟨c, o, m, ?_, fun hcrc => ?_⟩
        · rw [movItems, List.foldlM_cons, hit, ok_bind, h2]
        · obtain ⟨e1, e2⟩ := h3 hcrc
          rw [hdd (Or.inl hcrc)] at e1 e2
          constructor
          · rw [e1, movBytes_cons, crc32_append]
            simp only [MovPart.bytes, crc32_append]
          · rw [e2]
            simp only [metaLength, List.map_cons, List.sum_cons]
            have : aMdat = mdatType := rfl
            rw [this]
            omega

theorem movProfile_ok {crc : Bool} {parts : List MovPart} {tracks : List MovLayout} (hok : ∀ p ∈ parts, p.Ok) (he : Ends parts)
    (hf : Fits parts) (hbig : (movBytes parts).length < 2 ^ 63) (ht : HasTracks (leaves parts) tracks)
    (hin : ∀ t ∈ tracks, Inside (movBytes parts) t) :
    ∃ c o m L cur p, movProfile crc (movBytes parts) = .ok ⟨c, o, m, ⟨L, cur, p⟩⟩ ∧ AreTracks (movBytes parts) L tracks ∧
      (crc = true → c = crc32 (movBytes parts) 0 ∧ o = metaLength parts) := by
  obtain ⟨L, cur, p, h1, h2⟩ := tracks_fold hbig ht hin
  obtain ⟨c, o, m, h3, h4⟩ := profile_parts (file := movBytes parts) (crc := crc) (total := (movBytes parts).length)
    (pos := 0) (s := {}) hok (Or.inl rfl) h1
  refine ⟨c, o, m, L, cur, p, ?_, h2, ?_⟩
  · exact (movWalk_parts (how := profileHow crc) (fun q hq => profile_suits crc (hok q hq)) hbig he (fun _ => hf)).trans h3
  · intro hc
    have := h4 hc
    simpa using this

/-! ### Atoms at the top -/

theorem flatten_cons (t : MovTop) (ts : List MovTop) : flatten (t :: ts) = t.flat ++ flatten ts := by simp [flatten]
theorem flatten_append (a b : List MovTop) : flatten (a ++ b) = flatten a ++ flatten b := by simp [flatten]

theorem flat_bytes (t : MovTop) : movBytes t.flat = movHeader t.form t.type t.body.length ++ t.body := by
  cases t with
  | box form type data => simp [MovTop.flat, movBytes, MovPart.bytes, MovTop.form, MovTop.type, MovTop.body]
  | tree form type inner =>
    simp only [MovTop.flat, movBytes_cons, MovPart.bytes, MovTop.form, MovTop.type, MovTop.body]

theorem topBytes_cons (t : MovTop) (ts : List MovTop) :
    topBytes (t :: ts) = movHeader t.form t.type t.body.length ++ (t.body ++ topBytes ts) := by
  simp only [topBytes, flatten_cons, movBytes_append, flat_bytes, List.append_assoc]

theorem topBytes_append (a b : List MovTop) : topBytes (a ++ b) = topBytes a ++ topBytes b := by
  simp only [topBytes, flatten_append, movBytes_append]

/-- An atom at the top, not entered. -/
def topLeaf (t : MovTop) : MovPart := .leaf t.form t.type t.body

theorem flat_ne (t : MovTop) : t.flat ≠ [] := by cases t <;> simp [MovTop.flat]

theorem top_ok {tops : List MovTop} (h : ∀ p ∈ flatten tops, p.Ok) {t : MovTop} (ht : t ∈ tops) :
    t.type.length = 4 ∧ t.form.Holds t.body.length := by
  have hsub : ∀ p ∈ t.flat, p.Ok := fun p hp => h p (List.mem_flatMap.2 ⟨t, ht, hp⟩)
  cases t with
  | box form type data =>
    have := hsub _ (List.mem_singleton.2 rfl)
    exact ⟨this.1, this.2.2⟩
  | tree form type inner =>
    have := hsub (.enter form type (movBytes inner).length) (by simp [MovTop.flat])
    exact ⟨container_length this.1, this.2⟩

/-- An atom at the top of an SRS: without stream data, and with our atoms in front of that. -/
def srsTop (own : List MovPart) (t : MovTop) : List MovPart :=
  if t.type = mdatType then own ++ [.enter t.form t.type t.body.length] else [topLeaf t]

def srsFlat (own : List MovPart) (t : MovTop) : List MovPart :=
  if t.type = mdatType then own ++ [.enter t.form t.type t.body.length] else t.flat

theorem srsFlat_bytes (own : List MovPart) (tops : List MovTop) :
    movBytes (tops.flatMap (srsFlat own)) = movBytes (tops.flatMap (srsTop own)) := by
  induction tops with
  | nil => rfl
  | cons t ts ih =>
    rw [List.flatMap_cons, List.flatMap_cons, movBytes_append, movBytes_append, ih]
    congr 1
    unfold srsFlat srsTop
    split
    · rfl
    · rw [flat_bytes]
      simp [topLeaf, movBytes, MovPart.bytes]

/-- Atoms without size at the top. -/
def TopEnds : List MovTop → Prop
  | [] => True
  | t :: ts => (t.form = .unsized → (t.type = nullType ∧ t.body = []) ∨ (t.type ≠ nullType ∧ ts = [])) ∧ TopEnds ts

theorem topEnds_of {tops : List MovTop}
    (h : ∀ a t b, tops = a ++ t :: b → t.form = .unsized → (t.type = nullType ∧ t.body = []) ∨ (t.type ≠ nullType ∧ b = [])) :
    TopEnds tops := by
  induction tops with
  | nil => trivial
  | cons t ts ih => exact ⟨h [] t ts rfl, ih fun a u b e => h (t :: a) u b (by simp [e])⟩

theorem ends_enters {own : List MovPart} (ho : ∀ p ∈ own, ∀ type data, p ≠ .leaf .unsized type data) {ps : List MovPart} (h : Ends ps) :
    Ends (own ++ ps) := by
  induction own with
  | nil => exact h
  | cons p own ih =>
    have := ih fun q hq => ho q (by simp [hq])
    cases p with
    | enter => exact this
    | leaf form type data =>
      refine ⟨?_, this⟩
      rintro rfl
      exact absurd rfl (ho _ (by simp) type data)

theorem top_leaf_ends {tops : List MovTop} (h : TopEnds tops) : Ends (tops.map topLeaf) := by
  induction tops with
  | nil => trivial
  | cons t ts ih =>
    refine ⟨fun hf => ?_, ih h.2⟩
    rcases h.1 hf with h1 | ⟨h1, rfl⟩
    · exact Or.inl h1
    · exact Or.inr ⟨h1, rfl⟩

theorem srsTop_ends {own : List MovPart} (ho : ∀ p ∈ own, ∀ type data, p ≠ .leaf .unsized type data) {tops : List MovTop}
    (h : TopEnds tops) : Ends (tops.flatMap (srsTop own)) := by
  induction tops with
  | nil => trivial
  | cons t ts ih =>
    have ih := ih h.2
    rw [List.flatMap_cons]
    unfold srsTop
    split
    · rw [List.append_assoc]
      exact ends_enters ho ih
    · refine ⟨fun hf => ?_, ih⟩
      rcases h.1 hf with h1 | ⟨h1, rfl⟩
      · exact Or.inl h1
      · exact Or.inr ⟨h1, rfl⟩

theorem ends_replace {x y y' : List MovPart} (h : Ends (x ++ y)) (hy : Ends y') (he : y = [] → y' = []) : Ends (x ++ y') := by
  induction x with
  | nil => exact hy
  | cons p x ih =>
    have hx := ih h.tail
    cases p with
    | enter => exact hx
    | leaf form type data =>
      refine ⟨fun hf => ?_, hx⟩
      rcases h.1 hf with h1 | ⟨h1, h2⟩
      · exact Or.inl h1
      · have h2 : x ++ y = [] := h2
        rw [List.append_eq_nil_iff] at h2
        exact Or.inr ⟨h1, by rw [h2.1, he h2.2]; rfl⟩

theorem ends_right {x y : List MovPart} (h : Ends (x ++ y)) : Ends y := by
  induction x with
  | nil => exact h
  | cons p x ih => exact ih h.tail

theorem srsFlat_ends {own : List MovPart} (ho : ∀ p ∈ own, ∀ type data, p ≠ .leaf .unsized type data) {tops : List MovTop}
    (h : Ends (flatten tops)) : Ends (tops.flatMap (srsFlat own)) := by
  induction tops with
  | nil => trivial
  | cons t ts ih =>
    rw [flatten_cons] at h
    have ih := ih (ends_right h)
    rw [List.flatMap_cons]
    unfold srsFlat
    split
    · rw [List.append_assoc]
      exact ends_enters ho ih
    · refine ends_replace h ih fun e => ?_
      cases ts with
      | nil => rfl
      | cons u us =>
        rw [flatten_cons, List.append_eq_nil_iff] at e
        exact absurd e.1 (flat_ne u)

theorem fits_append {x y : List MovPart} (hx : Fits x) (hy : Fits y) : Fits (x ++ y) := by
  induction x with
  | nil => exact hy
  | cons p x ih =>
    have := ih hx.tail
    cases p with
    | leaf => exact this
    | enter form type n =>
      refine ⟨fun hf => ?_, this⟩
      have := hx.1 hf
      show n ≤ (movBytes (x ++ y)).length
      rw [movBytes_append]; simp; omega

theorem flatten_fits {tops : List MovTop} (h : ∀ form type inner, .tree form type inner ∈ tops → Fits inner) :
    Fits (flatten tops) := by
  induction tops with
  | nil => trivial
  | cons t ts ih =>
    rw [flatten_cons]
    refine fits_append ?_ (ih fun f ty i hi => h f ty i (by simp [hi]))
    cases t with
    | box => trivial
    | tree form type inner => exact ⟨fun _ => Nat.le_refl _, h form type inner (by simp)⟩

/-! ### Creating -/

def createHow (ty : Bytes) : MovHow := if ty = aMdat then .skip else .read

def createStep (own : Res Bytes) (out : Bytes) (p : MovPart) : Res Bytes :=
  match p with
  | .enter .. => .ok out
  | .leaf form type data =>
    if type = aMdat then do
      let b ← own
      return out ++ (b ++ movHeader form type data.length)
    else .ok (out ++ (movHeader form type data.length ++ data))

theorem create_step (own : Res Bytes) (t : MovTop) (total pos : Nat) (out : Bytes) :
    mp4CreateItem own out ((topLeaf t).item createHow total pos) = createStep own out (topLeaf t) := by
  unfold mp4CreateItem createStep
  simp only [topLeaf, MovPart.item, MovPart.atom, MovPart.data, createHow]
  split
  · rfl
  · rw [if_neg (by decide)]

theorem movBytes_topLeaf (tops : List MovTop) : movBytes (tops.map topLeaf) = topBytes tops := by
  induction tops with
  | nil => rfl
  | cons t ts ih =>
    rw [List.map_cons, movBytes_cons, ih, topBytes_cons]
    simp [topLeaf, MovPart.bytes]

theorem create_fold4 {own : List MovPart} {tops : List MovTop} : ∀ {out : Bytes},
    (tops.map topLeaf).foldlM (createStep (.ok (movBytes own))) out = .ok (out ++ movBytes (tops.flatMap (srsTop own))) := by
  induction tops with
  | nil => intro out; simp [pure_eq_ok]
  | cons t ts ih =>
    intro out
    rw [List.map_cons, List.foldlM_cons, List.flatMap_cons, movBytes_append]
    by_cases h : t.type = mdatType
    · have : createStep (.ok (movBytes own)) out (topLeaf t) =
          .ok (out ++ (movBytes own ++ movHeader t.form t.type t.body.length)) := by
        unfold createStep topLeaf
        dsimp only
        rw [if_pos (show t.type = aMdat from h)]
        rfl
      rw [this, ok_bind, ih, show srsTop own t = own ++ [.enter t.form t.type t.body.length] by unfold srsTop; rw [if_pos h],
        movBytes_append]
      simp [movBytes, MovPart.bytes]
    · have : createStep (.ok (movBytes own)) out (topLeaf t) =
          .ok (out ++ (movHeader t.form t.type t.body.length ++ t.body)) := by
        unfold createStep topLeaf
        dsimp only
        rw [if_neg (show ¬ t.type = aMdat from h)]
      rw [this, ok_bind, ih, show srsTop own t = [topLeaf t] by unfold srsTop; rw [if_neg h]]
      simp [movBytes, MovPart.bytes, topLeaf]

theorem create_fold4_error {e : Err} {tops : List MovTop} (hm : ∃ t ∈ tops, t.type = mdatType) : ∀ {out : Bytes},
    (tops.map topLeaf).foldlM (createStep (.error e)) out = .error e := by
  induction tops with
  | nil => simp at hm
  | cons t ts ih =>
    intro out
    rw [List.map_cons, List.foldlM_cons]
    by_cases h : t.type = mdatType
    · have : createStep (.error e) out (topLeaf t) = .error e := by
        unfold createStep topLeaf
        dsimp only
        rw [if_pos (show t.type = aMdat from h)]
        rfl
      rw [this]; rfl
    · have : createStep (.error e) out (topLeaf t) =
          .ok (out ++ (movHeader t.form t.type t.body.length ++ t.body)) := by
        unfold createStep topLeaf
        dsimp only
        rw [if_neg (show ¬ t.type = aMdat from h)]
      rw [this, ok_bind]
      apply ih
      obtain ⟨u, hu, hut⟩ := hm
      rcases List.mem_cons.1 hu with rfl | hu
      · exact absurd hut h
      · exact ⟨u, hu, hut⟩

theorem mp4Create_eq {app name : Str} {size crc : Nat} {tracks : Tracks} {big : Bool} {tops : List MovTop}
    (hok : ∀ p ∈ flatten tops, p.Ok) (he : TopEnds tops) (hbig : (topBytes tops).length < 2 ^ 63) :
    mp4CreateSrs app name size crc tracks big (topBytes tops) =
      (tops.map topLeaf).foldlM (createStep (mp4SrsAtoms app name size crc tracks big)) [] := by
  unfold mp4CreateSrs
  rw [← movBytes_topLeaf] at hbig ⊢
  refine (movWalk_parts (how := createHow) ?_ hbig (top_leaf_ends he) (by intro h; simp at h)).trans ?_
  rotate_left
  · exact items_fold fun p hp pos s => by
      obtain ⟨t, _, rfl⟩ := List.mem_map.1 hp
      exact create_step _ t _ pos s
  · intro p hp
    obtain ⟨t, ht, rfl⟩ := List.mem_map.1 hp
    obtain ⟨h1, h2⟩ := top_ok hok ht
    refine ⟨h1, h2, ?_⟩
    unfold createHow
    split <;> simp

/-! ### Our atoms -/

def ownAtoms (f : Bytes) (ds : List Bytes) : List MovPart := .leaf .narrow mSRSF f :: ds.map fun d => .leaf .narrow mSRST d

theorem movBlock_ok {marker data b : Bytes} (h : movBlock marker data = .ok b) :
    8 + data.length < 2 ^ 32 ∧ b = (MovPart.leaf .narrow marker data).bytes := by
  unfold movBlock packBe at h
  simp only [bind_eq_ok] at h
  obtain ⟨n, h1, h2⟩ := h
  split at h1
  · injection h1 with h1
    injection h2 with h2
    subst h1
    subst h2
    refine ⟨by omega, ?_⟩
    rw [Nat.add_comm data.length 8]
    simp [MovPart.bytes, movHeader]
  · simp at h1

/-- What is stored of the tracks, and how it reads back. -/
inductive OwnTracks4 (big : Bool) : Tracks → List Bytes → Prop
  | nil : OwnTracks4 big [] []
  | cons {p : Nat × TrackData} {ts : Tracks} {d : Bytes} {ds : List Bytes} :
      trackParse d = .ok (readTrack big p.2) → p.1 = p.2.number → 8 + d.length < 2 ^ 32 → OwnTracks4 big ts ds →
      OwnTracks4 big (p :: ts) (d :: ds)

theorem own_tracks4 {big : Bool} {tracks : Tracks} : ∀ {tb : List Bytes},
    (∀ p ∈ tracks, p.1 = p.2.number ∧ p.2.number < 2 ^ 16 ∧ p.2.flags = 0) →
    tracks.mapM (fun (x : Nat × TrackData) => do
      let t := if big then { x.2 with flags := x.2.flags ||| 4 } else x.2
      let d ← trackSerialize t
      movBlock mSRST d) = .ok tb →
    ∃ ds, OwnTracks4 big tracks ds ∧ tb.flatten = movBytes (ds.map fun d => .leaf .narrow mSRST d) := by
  induction tracks with
  | nil =>
    intro tb _ h
    simp at h; subst h
    exact ⟨[], .nil, rfl⟩
  | cons p ts ih =>
    intro tb hp h
    rw [mapM_ok_cons] at h
    obtain ⟨x, xs, h1, h2, rfl⟩ := h
    simp only [bind_eq_ok] at h1
    obtain ⟨d, hd, hb⟩ := h1
    obtain ⟨hn, hlt, hfl⟩ := hp p (by simp)
    obtain ⟨hl, rfl⟩ := movBlock_ok hb
    obtain ⟨ds, hds, he⟩ := ih (fun q hq => hp q (by simp [hq])) h2
    refine ⟨d :: ds, .cons (flagged_parse hlt hfl hd) hn hl hds, ?_⟩
    rw [List.flatten_cons, he, List.map_cons, movBytes_cons]

theorem srsAtoms_ok {app name : Str} {size crc : Nat} {tracks : Tracks} {big : Bool} {b : Bytes}
    (ht : ∀ p ∈ tracks, p.1 = p.2.number ∧ p.2.number < 2 ^ 16 ∧ p.2.flags = 0)
    (h : mp4SrsAtoms app name size crc tracks big = .ok b) :
    ∃ f ds, fileParse f = .ok ⟨3, app, basename name, size, crc % 2 ^ 32⟩ ∧ 8 + f.length < 2 ^ 32 ∧ OwnTracks4 big tracks ds ∧
      b = movBytes (ownAtoms f ds) := by
  unfold mp4SrsAtoms at h
  simp only [bind_eq_ok, pure_eq_ok, Except.ok.injEq] at h
  obtain ⟨f, hf, fb, hfb, tb, htb, rfl⟩ := h
  obtain ⟨hl, rfl⟩ := movBlock_ok hfb
  obtain ⟨ds, hds, he⟩ := own_tracks4 (big := big) ht (by rw [← htb])
  have := Props.file_data_round_trip hf []
  rw [List.append_nil] at this
  exact ⟨f, ds, this, hl, hds, by rw [ownAtoms, movBytes_cons, he]⟩

theorem OwnTracks4.short {big : Bool} {tracks : Tracks} {ds : List Bytes} (hd : OwnTracks4 big tracks ds) {d : Bytes}
    (hm : d ∈ ds) : 8 + d.length < 2 ^ 32 := by
  induction hd with
  | nil => simp at hm
  | cons _ _ hl _ ih =>
    rcases List.mem_cons.1 hm with rfl | hm
    · exact hl
    · exact ih hm

theorem ownAtoms_mem {f : Bytes} {ds : List Bytes} {p : MovPart} (h : p ∈ ownAtoms f ds) :
    p = .leaf .narrow mSRSF f ∨ ∃ d ∈ ds, p = .leaf .narrow mSRST d := by
  rcases List.mem_cons.1 h with rfl | h
  · exact Or.inl rfl
  · obtain ⟨d, hd, rfl⟩ := List.mem_map.1 h
    exact Or.inr ⟨d, hd, rfl⟩

theorem ownAtoms_sized {f : Bytes} {ds : List Bytes} : ∀ p ∈ ownAtoms f ds, ∀ type data, p ≠ .leaf .unsized type data := by
  intro p hp type data
  rcases ownAtoms_mem hp with rfl | ⟨d, _, rfl⟩ <;> simp

theorem ownAtoms_suits {big : Bool} {tracks : Tracks} {f : Bytes} {ds : List Bytes} {how : Bytes → MovHow}
    (hf : 8 + f.length < 2 ^ 32) (hd : OwnTracks4 big tracks ds) (h1 : how mSRSF ≠ .child) (h2 : how mSRST ≠ .child) :
    ∀ p ∈ ownAtoms f ds, Suits how p := by
  intro p hp
  rcases ownAtoms_mem hp with rfl | ⟨d, hm, rfl⟩
  · exact ⟨rfl, hf, h1⟩
  · exact ⟨rfl, hd.short hm, h2⟩

/-- The parts of an SRS, read in a way that enters exactly "mdat". -/
theorem srsTop_suits {own : List MovPart} {how : Bytes → MovHow} {tops : List MovTop} (hown : ∀ p ∈ own, Suits how p)
    (hok : ∀ p ∈ flatten tops, p.Ok) (hm : how mdatType = .child) (hn : ∀ ty, ty ≠ mdatType → how ty ≠ .child) :
    ∀ p ∈ tops.flatMap (srsTop own), Suits how p := by
  intro p hp
  obtain ⟨t, ht, hp⟩ := List.mem_flatMap.1 hp
  obtain ⟨h1, h2⟩ := top_ok hok ht
  unfold srsTop at hp
  split at hp
  · rename_i hty
    rcases List.mem_append.1 hp with hp | hp
    · exact hown p hp
    · rw [List.mem_singleton] at hp
      subst hp
      exact ⟨h1, h2, by rw [hty]; exact hm⟩
  · rename_i hty
    rw [List.mem_singleton] at hp
    subst hp
    exact ⟨h1, h2, hn _ hty⟩

/-! ### Loading -/

def loadHow (ty : Bytes) : MovHow :=
  if ty = mSRSF ∨ ty = mSRST then .read else if ty = aMdat then .child else .skip

def loadStep (s : Option FileData × Tracks) (p : MovPart) : Res (Option FileData × Tracks) :=
  match p with
  | .enter .. => .ok s
  | .leaf _ type data =>
    if type = mSRSF then do
      let f ← fileParse data
      return (some f, s.2)
    else if type = mSRST then do
      let t ← trackParse data
      return (s.1, s.2.put t.number t)
    else .ok s

theorem load_step {p : MovPart} (hp : ∀ form type n, p = .enter form type n → type = aMdat) (total pos : Nat)
    (s : Option FileData × Tracks) : mp4LoadItem s (p.item loadHow total pos) = loadStep s p := by
  cases p with
  | enter form type n =>
    have := hp _ _ _ rfl
    subst this
    rfl
  | leaf form type data =>
    obtain ⟨d, hd⟩ : ∃ d, d = (MovPart.leaf form type data).data loadHow := ⟨_, rfl⟩
    have e : mp4LoadItem s ((MovPart.leaf form type data).item loadHow total pos) = loadStep s (.leaf form type d) := by
      subst hd; rfl
    have hr : type = mSRSF ∨ type = mSRST → d = data := by
      intro h
      have hne : loadHow type ≠ .skip := by unfold loadHow; rw [if_pos h]; decide
      rw [hd]
      exact if_neg hne
    rw [e]
    unfold loadStep
    dsimp only
    by_cases h1 : type = mSRSF
    · rw [if_pos h1, if_pos h1, hr (Or.inl h1)]
    · by_cases h2 : type = mSRST
      · rw [if_neg h1, if_pos h2, if_neg h1, if_pos h2, hr (Or.inr h2)]
      · rw [if_neg h1, if_neg h2, if_neg h1, if_neg h2]

theorem load_new4 {big : Bool} {tracks : Tracks} {ds : List Bytes} (hd : OwnTracks4 big tracks ds) (f : Option FileData) :
    ∀ (acc : Tracks), (acc ++ tracks).Pairwise (fun a b => a.1 ≠ b.1) →
    (ds.map fun d => MovPart.leaf .narrow mSRST d).foldlM loadStep (f, acc) =
      .ok (f, acc ++ tracks.map fun p => (p.1, readTrack big p.2)) := by
  induction hd with
  | nil => intro acc _; simp [pure_eq_ok]
  | @cons p ts d ds hpar hn hl hd ih =>
    intro acc hpw
    have e : acc.put (readTrack big p.2).number (readTrack big p.2) = acc ++ [(p.1, readTrack big p.2)] := by
      rw [put_new]
      · simp [readTrack, hn]
      · intro q hq he
        have := (List.pairwise_append.1 hpw).2.2 q hq p (by simp)
        exact this (he.trans hn.symm)
    have h1 : loadStep (f, acc) (.leaf .narrow mSRST d) = .ok (f, acc ++ [(p.1, readTrack big p.2)]) := by
      unfold loadStep
      dsimp only
      rw [if_neg (by decide), if_pos rfl, hpar, ok_bind, e]
      rfl
    rw [List.map_cons, List.foldlM_cons, h1, ok_bind, ih]
    · simp
    · rw [List.append_assoc]
      rw [List.pairwise_append] at hpw ⊢
      refine ⟨hpw.1, ?_, ?_⟩
      · have := hpw.2.1
        rw [List.pairwise_cons] at this
        rw [List.singleton_append, List.pairwise_cons]
        exact this
      · intro a ha b hb
        rcases List.mem_cons.1 hb with rfl | hb
        · exact hpw.2.2 a ha p (by simp)
        · exact hpw.2.2 a ha b (List.mem_cons_of_mem _ hb)

theorem load_again4 {big : Bool} {tracks : Tracks} {ds : List Bytes} (hd : OwnTracks4 big tracks ds) (f : Option FileData)
    {acc : Tracks} (hacc : acc.Pairwise (fun a b => a.1 ≠ b.1)) : (∀ p ∈ tracks, (p.1, readTrack big p.2) ∈ acc) →
    (ds.map fun d => MovPart.leaf .narrow mSRST d).foldlM loadStep (f, acc) = .ok (f, acc) := by
  induction hd with
  | nil => intro _; rfl
  | @cons p ts d ds hpar hn hl hd ih =>
    intro hin
    have e : acc.put (readTrack big p.2).number (readTrack big p.2) = acc := by
      have := hin p (by simp)
      rw [hn] at this
      exact put_same hacc this
    have h1 : loadStep (f, acc) (.leaf .narrow mSRST d) = .ok (f, acc) := by
      unfold loadStep
      dsimp only
      rw [if_neg (by decide), if_pos rfl, hpar, ok_bind, e]
      rfl
    rw [List.map_cons, List.foldlM_cons, h1, ok_bind]
    exact ih fun q hq => hin q (by simp [hq])

theorem load_own4 {big : Bool} {tracks : Tracks} {ds : List Bytes} {f : Bytes} {fd : FileData} (hd : OwnTracks4 big tracks ds)
    (hf : fileParse f = .ok fd) (hpw : tracks.Pairwise (fun a b => a.1 ≠ b.1)) {s : Option FileData × Tracks}
    (hs : s = (none, []) ∨ s = (some fd, tracks.map fun p => (p.1, readTrack big p.2))) :
    (ownAtoms f ds).foldlM loadStep s = .ok (some fd, tracks.map fun p => (p.1, readTrack big p.2)) := by
  have h1 : loadStep s (.leaf .narrow mSRSF f) = .ok (some fd, s.2) := by
    unfold loadStep
    dsimp only
    rw [if_pos rfl, hf]
    rfl
  rw [ownAtoms, List.foldlM_cons, h1, ok_bind]
  rcases hs with rfl | rfl
  · rw [load_new4 hd (some fd) [] (by simpa using hpw)]; simp
  · exact load_again4 hd (some fd) (by rw [List.pairwise_map]; exact hpw) fun p hp => List.mem_map.2 ⟨p, hp, rfl⟩

theorem load_tops {big : Bool} {tracks : Tracks} {ds : List Bytes} {f : Bytes} {fd : FileData} (hd : OwnTracks4 big tracks ds)
    (hf : fileParse f = .ok fd) (hpw : tracks.Pairwise (fun a b => a.1 ≠ b.1)) {tops : List MovTop}
    (hown : ∀ t ∈ tops, t.type ∉ ownTypes) : ∀ {s : Option FileData × Tracks},
    (s = (none, []) ∧ (∃ t ∈ tops, t.type = mdatType) ∨ s = (some fd, tracks.map fun p => (p.1, readTrack big p.2))) →
    (tops.flatMap (srsTop (ownAtoms f ds))).foldlM loadStep s = .ok (some fd, tracks.map fun p => (p.1, readTrack big p.2)) := by
  induction tops with
  | nil =>
    intro s hs
    rcases hs with ⟨_, t, ht, _⟩ | rfl
    · simp at ht
    · rfl
  | cons t ts ih =>
    intro s hs
    have ih := @ih (fun u hu => hown u (by simp [hu]))
    rw [List.flatMap_cons, List.foldlM_append]
    unfold srsTop
    split
    · rw [List.foldlM_append, load_own4 hd hf hpw (hs.imp (·.1) id), ok_bind]
      have h1 : [MovPart.enter t.form t.type t.body.length].foldlM loadStep
          (some fd, tracks.map fun p => (p.1, readTrack big p.2)) = .ok (some fd, tracks.map fun p => (p.1, readTrack big p.2)) := rfl
      rw [h1, ok_bind]
      exact ih (Or.inr rfl)
    · rename_i hty
      have ho := hown t (by simp)
      simp only [ownTypes, List.mem_cons, List.not_mem_nil, or_false, not_or] at ho
      have h1 : [topLeaf t].foldlM loadStep s = .ok s := by
        simp only [List.foldlM_cons, List.foldlM_nil, topLeaf, loadStep]
        rw [if_neg (show ¬ t.type = mSRSF from ho.1), if_neg (show ¬ t.type = mSRST from ho.2)]
        rfl
      rw [h1, ok_bind]
      refine ih ?_
      rcases hs with ⟨h, u, hu, hut⟩ | h
      · refine Or.inl ⟨h, ?_⟩
        rcases List.mem_cons.1 hu with rfl | hu
        · exact absurd hut hty
        · exact ⟨u, hu, hut⟩
      · exact Or.inr h

theorem mp4Load_ok {big : Bool} {tracks : Tracks} {ds : List Bytes} {f : Bytes} {fd : FileData} (hd : OwnTracks4 big tracks ds)
    (hf : fileParse f = .ok fd) (hfl : 8 + f.length < 2 ^ 32) (hpw : tracks.Pairwise (fun a b => a.1 ≠ b.1)) {tops : List MovTop}
    (hown : ∀ t ∈ tops, t.type ∉ ownTypes) (hok : ∀ p ∈ flatten tops, p.Ok) (he : TopEnds tops)
    (hm : ∃ t ∈ tops, t.type = mdatType) (hbig : (movBytes (tops.flatMap (srsTop (ownAtoms f ds)))).length < 2 ^ 63) :
    mp4LoadSrs (movBytes (tops.flatMap (srsTop (ownAtoms f ds)))) = .ok (fd, tracks.map fun p => (p.1, readTrack big p.2)) := by
  have hsuit : ∀ p ∈ tops.flatMap (srsTop (ownAtoms f ds)), Suits loadHow p := by
    refine srsTop_suits (ownAtoms_suits hfl hd (by decide) (by decide)) hok (by decide) ?_
    intro ty hty
    unfold loadHow
    split
    · simp
    · rw [if_neg (show ¬ ty = aMdat from hty)]; simp
  have hw : movWalk .srs loadHow (movBytes (tops.flatMap (srsTop (ownAtoms f ds)))) mp4LoadItem (none, []) =
      .ok (some fd, tracks.map fun p => (p.1, readTrack big p.2)) := by
    rw [movWalk_parts hsuit hbig (srsTop_ends ownAtoms_sized he) (by intro h; simp at h), items_fold (g := loadStep),
      load_tops hd hf hpw hown (Or.inl ⟨rfl, hm⟩)]
    intro p hp pos s
    refine load_step ?_ _ _ _
    rintro form type n rfl
    obtain ⟨t, ht, hp⟩ := List.mem_flatMap.1 hp
    unfold srsTop at hp
    split at hp
    · rename_i hty
      rcases List.mem_append.1 hp with hp | hp
      · rcases ownAtoms_mem hp with h | ⟨d, _, h⟩ <;> simp at h
      · rw [List.mem_singleton] at hp
        injection hp with _ h2 _
        rw [h2, hty]; rfl
    · rw [List.mem_singleton] at hp
      simp [topLeaf] at hp
  exact congrArg (fun r => r >>= _) hw

end Rescene
