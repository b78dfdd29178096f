import Verif.Lemmas.Mkv
/-
Profiling MKV samples.
-/
namespace Rescene
open Spec

theorem ofBe_cons (x : UInt8) (t : Bytes) : ofBe (x :: t) = x.toNat * 256 ^ t.length + ofBe t := by
  unfold ofBe
  rw [List.reverse_cons]
  generalize ht : t.reverse = r
  have hl : t.length = r.length := by rw [← ht, List.length_reverse]
  rw [hl]
  clear ht hl
  induction r with
  | nil => simp [ofLe]
  | cons y r ih =>
    rw [List.cons_append, ofLe, ofLe, ih, List.length_cons, Nat.pow_succ, Nat.mul_add]
    have : 256 * (x.toNat * 256 ^ r.length) = x.toNat * (256 ^ r.length * 256) := by
      rw [Nat.mul_comm 256, Nat.mul_assoc]
    omega

theorem ebmlUIntLoop_all (s : Bytes) : ∀ (pre : Bytes) (size : Nat),
    ebmlUIntLoop (pre ++ s) size s.length pre.length = .ok (size * 256 ^ s.length + ofBe s) := by
  induction s with
  | nil => intro pre size; simp [ebmlUIntLoop, ofBe, ofLe]
  | cons x t ih =>
    intro pre size
    rw [List.length_cons, ebmlUIntLoop, unpackBeAt_one rfl, ok_bind]
    have := ih (pre ++ [x]) ((size <<< 8) + x.toNat)
    rw [List.append_assoc, List.length_append] at this
    rw [show (pre ++ x :: t) = pre ++ ([x] ++ t) from rfl]
    refine this.trans ?_
    rw [ofBe_cons, Nat.shiftLeft_eq, show (2 : Nat) ^ 8 = 256 from rfl, Nat.pow_succ, Nat.add_mul, Nat.mul_assoc,
      Nat.mul_comm 256]
    congr 1
    omega

theorem mask_small : ∀ x, x < 256 → ∀ k, k < 9 → x < 2 ^ (8 - k) → x &&& (0xFF >>> k) = x := by decide +kernel

/-- Plain unsigned integers are read as they are. -/
theorem uint_read {data : Bytes} (h : PlainUInt data) : getEbmlUInt data 0 data.length = .ok (ofBe data) := by
  obtain ⟨h1, h2, h3⟩ := h
  cases data with
  | nil => simp at h1
  | cons x t =>
    unfold getEbmlUInt
    have := unpackBeAt_one (pre := []) (s := t) (x := x) (off := 0) rfl
    rw [List.nil_append] at this
    rw [this, ok_bind]
    have h4 := ebmlUIntLoop_all t [x] (x.toNat &&& (0xFF >>> (x :: t).length))
    rw [show 0 + 1 = [x].length from rfl, show (x :: t).length - 1 = t.length from by simp]
    refine h4.trans ?_
    have hx : x.toNat < 2 ^ (8 - (t.length + 1)) := by
      rw [ofBe_cons, List.length_cons] at h3
      have hp : (2:Nat) ^ (7 * (t.length + 1)) = 2 ^ (8 - (t.length + 1)) * 256 ^ t.length := by
        rw [show (256:Nat) = 2 ^ 8 from rfl, ← Nat.pow_mul, ← Nat.pow_add]; congr 1; simp at h2; omega
      rw [hp] at h3
      have : x.toNat * 256 ^ t.length < 2 ^ (8 - (t.length + 1)) * 256 ^ t.length := by omega
      exact Nat.lt_of_mul_lt_mul_right this
    rw [List.length_cons, mask_small _ x.toNat_lt _ (by simp at h2; omega) hx, ofBe_cons]

/-! ### Dictionaries -/

theorem dictPut_keys {α : Type} (l : List (Nat × α)) (n : Nat) (t : α) (k : Nat) :
    k ∈ (dictPut l n t).map (·.1) ↔ k ∈ l.map (·.1) ∨ k = n := by
  induction l with
  | nil => simp [dictPut]
  | cons y l ih =>
    obtain ⟨k', x⟩ := y
    rw [dictPut]
    by_cases hk : k' = n
    · rw [if_pos hk]
      subst hk
      simp only [List.map_cons, List.mem_cons]
      constructor
      · intro h; exact Or.inl h
      · rintro (h | h)
        · exact h
        · exact Or.inl h
    · rw [if_neg hk, List.map_cons, List.mem_cons, ih, List.map_cons, List.mem_cons]
      constructor
      · rintro (h | h | h)
        · exact Or.inl (Or.inl h)
        · exact Or.inl (Or.inr h)
        · exact Or.inr h
      · rintro ((h | h) | h)
        · exact Or.inl h
        · exact Or.inr (Or.inl h)
        · exact Or.inr (Or.inr h)

theorem dictPut_distinct {α : Type} {l : List (Nat × α)} (h : l.Pairwise fun a b => a.1 ≠ b.1) (n : Nat) (t : α) :
    (dictPut l n t).Pairwise fun a b => a.1 ≠ b.1 := by
  induction l with
  | nil => simp [dictPut]
  | cons y l ih =>
    obtain ⟨k', x⟩ := y
    rw [List.pairwise_cons] at h
    rw [dictPut]
    by_cases hk : k' = n
    · rw [if_pos hk, List.pairwise_cons]
      exact ⟨h.1, h.2⟩
    · rw [if_neg hk, List.pairwise_cons]
      refine ⟨fun z hz he => ?_, ih h.2⟩
      have := (dictPut_keys l n t z.1).1 (List.mem_map.2 ⟨z, hz, rfl⟩)
      rcases this with hm | hm
      · obtain ⟨w, hw, hwe⟩ := List.mem_map.1 hm
        exact h.1 w hw (by rw [hwe]; exact he)
      · exact hk (by rw [← hm]; exact he)

theorem movGet_eq_some {α : Type} {l : List (Nat × α)} {n : Nat} {t : α} (h : movGet l n = some t) : (n, t) ∈ l := by
  unfold movGet at h
  cases hf : l.find? (·.1 == n) with
  | none => rw [hf] at h; simp at h
  | some y =>
    rw [hf] at h
    have h1 := List.find?_some hf
    have h2 := List.mem_of_find?_eq_some hf
    simp only [Option.map_some, Option.some.injEq] at h
    obtain ⟨k, x⟩ := y
    simp only [beq_iff_eq] at h1
    dsimp only at h
    rw [← h1, ← h]
    exact h2

theorem movGet_of_mem {α : Type} {l : List (Nat × α)} (hd : l.Pairwise fun a b => a.1 ≠ b.1) {n : Nat} {t : α} (h : (n, t) ∈ l) :
    movGet l n = some t := by
  unfold movGet
  induction l with
  | nil => simp at h
  | cons y l ih =>
    obtain ⟨k, x⟩ := y
    rw [List.pairwise_cons] at hd
    rw [List.find?_cons]
    rcases List.mem_cons.1 h with h | h
    · injection h with h1 h2
      subst h1 h2
      simp
    · have : ¬ k = n := hd.1 _ h
      rw [show ((k, x).1 == n) = false by simpa using this]
      exact ih hd.2 h

theorem movGet_none {α : Type} {l : List (Nat × α)} {n : Nat} : movGet l n = none ↔ n ∉ l.map (·.1) := by
  unfold movGet
  rw [Option.map_eq_none_iff, List.find?_eq_none]
  constructor
  · intro h hm
    obtain ⟨y, hy, he⟩ := List.mem_map.1 hm
    exact h y hy (by simpa using he)
  · intro h y hy he
    exact h (List.mem_map.2 ⟨y, hy, by simpa using he⟩)

theorem movGet_isSome {α : Type} {l : List (Nat × α)} {n : Nat} : (movGet l n).isSome = true ↔ n ∈ l.map (·.1) := by
  cases h : movGet l n with
  | none => simpa using movGet_none.1 h
  | some t => simpa using ⟨t, movGet_eq_some h⟩

theorem movGet_dictPut {α : Type} (l : List (Nat × α)) (n : Nat) (t : α) (k : Nat) :
    movGet (dictPut l n t) k = if k = n then some t else movGet l k := by
  induction l with
  | nil =>
    simp only [dictPut, movGet, List.find?_cons, List.find?_nil]
    by_cases h : k = n
    · subst h; simp
    · rw [if_neg h, show (n == k) = false by simp; exact fun e => h e.symm]
  | cons y l ih =>
    obtain ⟨k', x⟩ := y
    rw [dictPut]
    by_cases hk : k' = n
    · rw [if_pos hk]
      subst hk
      by_cases h : k = k'
      · subst h; simp [movGet]
      · rw [if_neg h]
        have : (k' == k) = false := by simp; exact fun e => h e.symm
        simp [movGet, this]
    · rw [if_neg hk]
      by_cases h : k' = k
      · subst h
        rw [if_neg hk]
        simp [movGet]
      · have : (k' == k) = false := by simpa using h
        have ih' := ih
        unfold movGet at ih' ⊢
        rw [List.find?_cons, List.find?_cons, this]
        exact ih'

/-! ### The signature -/

theorem minSig_bounds (content : Bytes) (already : Nat) :
    256 - already ≤ minSigSize content already ∧ minSigSize content already ≤ 9984 - already := by
  unfold minSigSize
  dsimp only
  cases h : ((List.range' 1 39).find? fun (k : Nat) =>
      !isAscii (pySlice content (256 * (k : Int) - (already : Int) - 64) (256 * (k : Int) - (already : Int)))) with
  | none => simp only [Option.getD_none, if_true]; omega
  | some k =>
    have := List.mem_of_find?_eq_some h
    rw [List.mem_range'] at this
    obtain ⟨i, hi, rfl⟩ := this
    simp only [Option.getD_some]
    split <;> omega

theorem signature_nil : IsSignature [] [] := ⟨List.prefix_refl _, fun _ => rfl, by simp⟩

theorem growSig_ok {sig data content : Bytes} (h : IsSignature sig data) : IsSignature (growSig sig content) (data ++ content) := by
  obtain ⟨h1, h2, h3⟩ := h
  unfold growSig
  split
  · rename_i hs
    have e := h2 hs
    subst e
    obtain ⟨b1, b2⟩ := minSig_bounds content sig.length
    refine ⟨?_, ?_, ?_⟩
    · exact (List.prefix_append_right_inj sig).2 (List.take_prefix _ _)
    · intro hl
      rw [List.length_append, List.length_take] at hl
      rw [List.take_of_length_le (by omega)]
    · rw [List.length_append, List.length_take]; omega
  · rename_i hs
    exact ⟨h1.trans (List.prefix_append _ _), fun hl => absurd hl hs, h3⟩

/-! ### The loop -/

def childIds : List Bytes :=
  [segmentId, clusterId, blockGroupId, tracksId, trackEntryId, encodingsId, encodingId, attachmentsId, attachedFileId, compressionId]

theorem profileHow_eq (s : MkvProfile) (e : EbmlElem) :
    mkvProfileHow s e = if e.id ∈ childIds then .child else .read := by
  unfold mkvProfileHow
  simp only [childIds, List.mem_cons, List.not_mem_nil, or_false]
  rfl

/-- Parts as the profiler expects them. -/
def ProfPart : MkvPart → Prop
  | .enter id _ => id ∈ childIds
  | .leaf id _ data => id ∉ childIds ∧ (id ∈ [trackNumberId, compAlgoId] → PlainUInt data)
  | .block _ => True

theorem block_not_child {b : MkvBlock} (h : b.Ok) : b.id ∉ childIds := by
  have := h.id
  simp only [blockIds, List.mem_cons, List.not_mem_nil, or_false] at this
  rcases this with e | e <;> rw [e] <;> decide

theorem profile_suits' {p : MkvPart} (h : p.Ok) (hp : ProfPart p) (s : MkvProfile) (pos : Nat) :
    EbmlSuits .sample (mkvProfileHow s (p.elem pos)) (p, true) := by
  rw [profileHow_eq]
  cases p with
  | enter id size => rw [if_pos (show (MkvPart.elem pos (.enter id size)).id ∈ childIds from hp)]; exact Or.inr rfl
  | leaf id size data =>
    rw [if_neg (show (MkvPart.elem pos (.leaf id size data)).id ∉ childIds from hp.1)]
    exact ⟨rfl, by simp, by simp⟩
  | block b =>
    rw [if_neg (show (MkvPart.elem pos (.block b)).id ∉ childIds from block_not_child h)]
    exact ⟨rfl, by simp, by simp⟩

theorem profile_seen {p : MkvPart} (h : p.Ok) (hp : ProfPart p) (s : MkvProfile) (pos : Nat) :
    ebmlSeen (mkvProfileHow s (p.elem pos)) p = p.data := by
  rw [profileHow_eq]
  unfold ebmlSeen
  cases p with
  | enter id size => simp [MkvPart.data]
  | leaf id size data =>
    rw [if_neg (show (MkvPart.elem pos (.leaf id size data)).id ∉ childIds from hp.1)]; rfl
  | block b =>
    rw [if_neg (show (MkvPart.elem pos (.block b)).id ∉ childIds from block_not_child h)]; rfl

theorem mkvTotal_put (l : MkvTracks) (n : Nat) (t d : MkvTrack) (hd : d.len = 0) :
    mkvTotal (dictPut l n t) = mkvTotal l + t.len - ((movGet l n).getD d).len := by
  induction l with
  | nil => simp [dictPut, mkvTotal, movGet, hd]
  | cons y l ih =>
    obtain ⟨k, x⟩ := y
    rw [dictPut]
    by_cases hk : k = n
    · rw [if_pos hk]
      subst hk
      simp only [mkvTotal, List.foldr_cons, movGet, List.find?_cons, beq_self_eq_true, Option.map_some, Option.getD_some]
      omega
    · rw [if_neg hk]
      have : (k == n) = false := by simpa using hk
      simp only [mkvTotal, List.foldr_cons, movGet, List.find?_cons, this] at ih ⊢
      omega

theorem trackData_append (a b : List MkvPart) (n : Nat) : mkvTrackData (a ++ b) n = mkvTrackData a n ++ mkvTrackData b n := by
  simp [mkvTrackData]

theorem mkvBytes_append (a b : List MkvPart) : mkvBytes (a ++ b) = mkvBytes a ++ mkvBytes b := by
  simp [mkvBytes]

theorem stripStep_leaf (s : StripState) (id size data : Bytes) : stripStep s (.leaf id size data) =
    if id = trackNumberId then { s with cur := ofBe data }
    else if id = compAlgoId then { s with strip := ofBe data == 3 }
    else if id = compSettingsId ∧ s.strip = true then { s with settings := fun n => if n = s.cur then data else s.settings n }
    else s := rfl

structure ProfInv (done : List MkvPart) (s : MkvProfile) : Prop where
  crc : s.crc = crc32 (mkvBytes done) 0
  total : (s.other : Int) + s.attach + mkvTotal s.tracks = (mkvBytes done).length
  distinct : s.tracks.Pairwise fun a b => a.1 ≠ b.1
  keys : ∀ n, n ∈ s.tracks.map (·.1) ↔ HasTrack done n
  data : ∀ n t, (n, t) ∈ s.tracks → IsSignature t.sig (mkvTrackData done n) ∧
    t = { number := n, len := (mkvTrackData done n).length, sig := t.sig, settings := strippedHeader done n }
  cur : s.cur = (done.foldl stripStep {}).cur
  strip : s.strip = (done.foldl stripStep {}).strip
  unset : ∀ n, strippedHeader done n ≠ [] → HasTrack done n
  none : ∀ n, ¬ HasTrack done n → mkvTrackData done n = []

theorem hasTrack_append (a b : List MkvPart) (n : Nat) : HasTrack (a ++ b) n ↔ HasTrack a n ∨ HasTrack b n := by
  unfold HasTrack
  constructor
  · rintro (⟨x, hx, h⟩ | ⟨s, d, hx, h⟩)
    · rcases List.mem_append.1 hx with hx | hx
      · exact Or.inl (Or.inl ⟨x, hx, h⟩)
      · exact Or.inr (Or.inl ⟨x, hx, h⟩)
    · rcases List.mem_append.1 hx with hx | hx
      · exact Or.inl (Or.inr ⟨s, d, hx, h⟩)
      · exact Or.inr (Or.inr ⟨s, d, hx, h⟩)
  · rintro ((⟨x, hx, h⟩ | ⟨s, d, hx, h⟩) | (⟨x, hx, h⟩ | ⟨s, d, hx, h⟩))
    · exact Or.inl ⟨x, List.mem_append_left _ hx, h⟩
    · exact Or.inr ⟨s, d, List.mem_append_left _ hx, h⟩
    · exact Or.inl ⟨x, List.mem_append_right _ hx, h⟩
    · exact Or.inr ⟨s, d, List.mem_append_right _ hx, h⟩

/-- Nothing changes but bytes that are read. -/
theorem prof_plain {done : List MkvPart} {s s' : MkvProfile} {p : MkvPart} (hi : ProfInv done s)
    (hb : ∀ b, p ≠ .block b) (hn : ∀ size data, p ≠ .leaf trackNumberId size data)
    (ha : ∀ size data, p ≠ .leaf compAlgoId size data)
    (hs : ∀ size data, p = .leaf compSettingsId size data → s.strip = false)
    (hc : s'.crc = crc32 p.bytes s.crc) (ho : s'.other + s'.attach = s.other + s.attach + p.bytes.length)
    (ht : s'.tracks = s.tracks) (hcur : s'.cur = s.cur) (hst : s'.strip = s.strip) : ProfInv (done ++ [p]) s' := by
  have e1 : ∀ n, mkvTrackData (done ++ [p]) n = mkvTrackData done n := by
    intro n
    rw [trackData_append]
    cases p with
    | enter => simp [mkvTrackData]
    | leaf => simp [mkvTrackData]
    | block b => exact absurd rfl (hb b)
  have e2 : ∀ n, HasTrack (done ++ [p]) n ↔ HasTrack done n := by
    intro n
    rw [hasTrack_append]
    constructor
    · rintro (h | ⟨b, h, _⟩ | ⟨x, d, h, _⟩)
      · exact h
      · exact absurd (List.mem_singleton.1 h).symm (hb b)
      · exact absurd (List.mem_singleton.1 h).symm (hn x d)
    · exact Or.inl
  have e3 : (done ++ [p]).foldl stripStep {} = done.foldl stripStep {} := by
    rw [List.foldl_append, List.foldl_cons, List.foldl_nil]
    cases p with
    | enter => rfl
    | block => rfl
    | leaf id size data =>
      rw [stripStep_leaf, if_neg (fun h => hn size data (by rw [h])), if_neg (fun h => ha size data (by rw [h])), if_neg]
      rintro ⟨h1, h2⟩
      have := hs size data (by rw [h1])
      rw [hi.strip, h2] at this
      simp at this
  have e4 : ∀ n, strippedHeader (done ++ [p]) n = strippedHeader done n := by
    intro n; unfold strippedHeader; rw [e3]
  have e5 : mkvBytes [p] = p.bytes := by simp [mkvBytes]
  refine ⟨?_, ?_, ?_, ?_, ?_, ?_, ?_, ?_, ?_⟩
  · rw [hc, hi.crc, mkvBytes_append, crc32_append (mkvBytes done), e5]
  · rw [ht, mkvBytes_append, List.length_append, e5]
    have := hi.total
    omega
  · rw [ht]; exact hi.distinct
  · intro n; rw [ht, e2]; exact hi.keys n
  · intro n t hm
    rw [ht] at hm
    rw [e1, e4]
    exact hi.data n t hm
  · rw [hcur, e3]; exact hi.cur
  · rw [hst, e3]; exact hi.strip
  · intro n h; rw [e4] at h; rw [e2]; exact hi.unset n h
  · intro n h; rw [e2] at h; rw [e1]; exact hi.none n h

theorem profileItem_child {s : MkvProfile} {e : EbmlElem} {data : Bytes} (hb : e.block = none) (hc : e.id ∈ childIds) :
    mkvProfileItem s e data = if e.id = eCompression ∧ (movGet s.tracks s.cur).isNone = true then .error .keyError
      else .ok ({ s with other := s.other + e.header.length, crc := crc32 e.header s.crc }, false) := by
  unfold mkvProfileItem
  rw [hb]
  dsimp only
  rw [if_pos (by rw [profileHow_eq, if_pos hc])]

theorem profileItem_leaf {s : MkvProfile} {e : EbmlElem} {data : Bytes} (hb : e.block = none) (hc : e.id ∉ childIds) :
    mkvProfileItem s e data =
      mkvProfileLeaf { s with other := s.other + e.header.length, crc := crc32 e.header s.crc } e.id e.length data := by
  unfold mkvProfileItem
  rw [hb]
  dsimp only
  rw [if_neg (by rw [profileHow_eq, if_neg hc]; decide)]

theorem prof_step {done : List MkvPart} {s s' : MkvProfile} {p : MkvPart} {pos : Nat} {d : Bool} (hi : ProfInv done s)
    (hok : p.Ok) (hp : ProfPart p) (h : mkvProfileItem s (p.elem pos) p.data = .ok (s', d)) :
    d = false ∧ ProfInv (done ++ [p]) s' := by
  cases p with
  | enter id size =>
    rw [profileItem_child (e := MkvPart.elem pos (.enter id size)) rfl hp] at h
    change (if id = eCompression ∧ (movGet s.tracks s.cur).isNone = true then _ else _) = _ at h
    split at h
    · simp at h
    · injection h with h
      injection h with h1 h2
      subst h1
      refine ⟨h2.symm, prof_plain hi (by simp) (by simp) (by simp) (by simp) ?_ ?_ rfl rfl rfl⟩
      · simp [MkvPart.bytes, MkvPart.head, MkvPart.data, MkvPart.elem]
      · simp [MkvPart.bytes, MkvPart.head, MkvPart.data, MkvPart.elem]; omega
  | block b =>
    unfold mkvProfileItem at h
    dsimp only [MkvPart.elem] at h
    injection h with h
    injection h with h1 h2
    subst h1
    refine ⟨h2.symm, ?_⟩
    have e3 : (done ++ [MkvPart.block b]).foldl stripStep {} = done.foldl stripStep {} := by
      rw [List.foldl_append]; rfl
    have e4 : ∀ n, strippedHeader (done ++ [MkvPart.block b]) n = strippedHeader done n := by
      intro n; unfold strippedHeader; rw [e3]
    have e1 : ∀ n, mkvTrackData (done ++ [MkvPart.block b]) n = mkvTrackData done n ++ (if b.track = n then b.data else []) := by
      intro n; rw [trackData_append]; simp [mkvTrackData]
    have e2 : ∀ n, HasTrack (done ++ [MkvPart.block b]) n ↔ HasTrack done n ∨ n = b.track := by
      intro n
      rw [hasTrack_append]
      constructor
      · rintro (h | ⟨c, h, h'⟩ | ⟨x, d, h, _⟩)
        · exact Or.inl h
        · injection (List.mem_singleton.1 h) with h; subst h; exact Or.inr h'.symm
        · simp at h
      · rintro (h | h)
        · exact Or.inl h
        · exact Or.inr (Or.inl ⟨b, by simp, h.symm⟩)
    -- the track before
    obtain ⟨told, htold⟩ : ∃ t, t = (movGet s.tracks b.track).getD { number := b.track } := ⟨_, rfl⟩
    have hold : IsSignature told.sig (mkvTrackData done b.track) ∧
        told = { number := b.track, len := (mkvTrackData done b.track).length, sig := told.sig, settings := strippedHeader done b.track } := by
      cases hg : movGet s.tracks b.track with
      | some t =>
        rw [hg] at htold
        simp only [Option.getD_some] at htold
        rw [htold]
        exact hi.data _ _ (movGet_eq_some hg)
      | none =>
        rw [hg] at htold
        simp only [Option.getD_none] at htold
        have hno : ¬ HasTrack done b.track := fun hh => movGet_none.1 hg ((hi.keys _).2 hh)
        have h1 := hi.none _ hno
        have h2 : strippedHeader done b.track = [] := by
          apply Decidable.byContradiction
          intro hne
          exact hno (hi.unset _ hne)
        rw [htold, h1, h2]
        exact ⟨signature_nil, rfl⟩
    have e5 : mkvBytes [MkvPart.block b] = (b.id ++ b.size) ++ (b.head ++ b.data) := by
      simp [mkvBytes, MkvPart.bytes, MkvPart.head, MkvPart.data]
    refine ⟨?_, ?_, ?_, ?_, ?_, ?_, ?_, ?_, ?_⟩
    · dsimp only [MkvBlock.info]
      rw [hi.crc, mkvBytes_append, e5, crc32_append (mkvBytes done), crc32_append (b.id ++ b.size), crc32_append b.head]
      rfl
    · dsimp only [MkvBlock.info]
      rw [mkvTotal_put _ _ _ { number := b.track } rfl, mkvBytes_append, List.length_append, e5]
      have := hi.total
      simp only [List.length_append] at this ⊢
      rw [← htold]
      omega
    · exact dictPut_distinct hi.distinct _ _
    · intro n
      rw [dictPut_keys, hi.keys, e2]
      rfl
    · intro n t hm
      have hg := movGet_of_mem (dictPut_distinct hi.distinct _ _) hm
      rw [movGet_dictPut] at hg
      rw [e1, e4]
      by_cases hn : n = b.track
      · rw [if_pos (show n = b.info.track from hn)] at hg
        injection hg with hg
        subst hn
        rw [if_pos rfl]
        have hsig : t.sig = growSig told.sig b.data := by rw [← hg, htold]; rfl
        refine ⟨by rw [hsig]; exact growSig_ok hold.1, ?_⟩
        rw [hsig]
        rw [← hg]
        dsimp only [MkvBlock.info]
        rw [← htold]
        have h2 := hold.2
        rw [h2]
        simp [MkvPart.data]
      · rw [if_neg (show ¬ n = b.info.track from hn)] at hg
        rw [if_neg (fun e => hn e.symm), List.append_nil]
        exact hi.data n t (movGet_eq_some hg)
    · rw [e3]; exact hi.cur
    · rw [e3]; exact hi.strip
    · intro n h; rw [e4] at h; rw [e2]; exact Or.inl (hi.unset n h)
    · intro n h
      rw [e2] at h
      rw [e1, if_neg (fun e => h (Or.inr e.symm)), List.append_nil]
      exact hi.none n (fun hh => h (Or.inl hh))
  | leaf id size data =>
    rw [profileItem_leaf (e := MkvPart.elem pos (.leaf id size data)) rfl hp.1] at h
    change mkvProfileLeaf { s with other := s.other + (id ++ size).length, crc := crc32 (id ++ size) s.crc } id data.length data = _ at h
    unfold mkvProfileLeaf at h
    dsimp only at h
    have hcr : crc32 (MkvPart.leaf id size data).data (crc32 (id ++ size) s.crc) = crc32 (MkvPart.leaf id size data).bytes s.crc := by
      rw [← crc32_append]; rfl
    have hlen : (MkvPart.leaf id size data).bytes.length = (id ++ size).length + data.length := by
      simp [MkvPart.bytes, MkvPart.head, MkvPart.data]; omega
    split at h
    · -- attached data
      rename_i hid
      have hid : id = fileDataId := hid
      injection h with h
      injection h with h1 h2
      subst h1
      refine ⟨h2.symm, prof_plain hi (by simp) ?_ ?_ ?_ ?_ ?_ rfl rfl rfl⟩
      · rw [hid]; intro x y e; injection e with e; revert e; decide
      · rw [hid]; intro x y e; injection e with e; revert e; decide
      · rw [hid]; intro x y e; injection e with e; exact absurd e (by decide)
      · exact hcr
      · rw [hlen]; dsimp only [MkvPart.data]; omega
    · split at h
      · -- a track number
        rename_i hid
        have hid : id = trackNumberId := hid
        have hpu := hp.2 (by rw [hid]; simp)
        rw [uint_read hpu, ok_bind] at h
        injection h with h
        injection h with h1 h2
        subst h1
        refine ⟨h2.symm, ?_⟩
        subst hid
        have e1 : ∀ n, mkvTrackData (done ++ [MkvPart.leaf trackNumberId size data]) n = mkvTrackData done n := by
          intro n; rw [trackData_append]; simp [mkvTrackData]
        have e3 : (done ++ [MkvPart.leaf trackNumberId size data]).foldl stripStep {} = { done.foldl stripStep {} with cur := ofBe data } := by
          rw [List.foldl_append]; rfl
        have e4 : ∀ n, strippedHeader (done ++ [MkvPart.leaf trackNumberId size data]) n = strippedHeader done n := by
          intro n; unfold strippedHeader; rw [e3]
        have e2 : ∀ n, HasTrack (done ++ [MkvPart.leaf trackNumberId size data]) n ↔ HasTrack done n ∨ n = ofBe data := by
          intro n
          rw [hasTrack_append]
          constructor
          · rintro (h | ⟨c, h, h'⟩ | ⟨x, d, h, h'⟩)
            · exact Or.inl h
            · simp at h
            · injection (List.mem_singleton.1 h) with _ _ h; subst h; exact Or.inr h'.symm
          · rintro (h | h)
            · exact Or.inl h
            · exact Or.inr (Or.inr ⟨size, data, by simp, h.symm⟩)
        have e5 : mkvBytes [MkvPart.leaf trackNumberId size data] = (MkvPart.leaf trackNumberId size data).bytes := by simp [mkvBytes]
        have hno : ¬ (movGet s.tracks (ofBe data)).isSome = true → ¬ HasTrack done (ofBe data) := by
          intro hh hk
          exact hh (movGet_isSome.2 ((hi.keys _).2 hk))
        refine ⟨?_, ?_, ?_, ?_, ?_, ?_, ?_, ?_, ?_⟩
        · show crc32 data (crc32 (trackNumberId ++ size) s.crc) = _
          rw [show crc32 data (crc32 (trackNumberId ++ size) s.crc) = crc32 (MkvPart.leaf trackNumberId size data).bytes s.crc from hcr,
            hi.crc, mkvBytes_append, crc32_append (mkvBytes done), e5]
        · rw [mkvBytes_append, List.length_append (as := mkvBytes done), e5, hlen]
          have := hi.total
          have ht : mkvTotal (if (movGet s.tracks (ofBe data)).isSome = true then s.tracks else dictPut s.tracks (ofBe data) { number := ofBe data }) =
              mkvTotal s.tracks := by
            split
            · rfl
            · rename_i hh
              rw [mkvTotal_put _ _ _ { number := ofBe data } rfl]
              cases hg : movGet s.tracks (ofBe data) with
              | none => simp
              | some t => rw [hg] at hh; simp at hh
          dsimp only
          rw [ht]
          simp only [Int.toNat_natCast]
          omega
        · dsimp only
          split
          · exact hi.distinct
          · exact dictPut_distinct hi.distinct _ _
        · intro n
          rw [e2, ← hi.keys]
          dsimp only
          split
          · rename_i hh
            constructor
            · exact Or.inl
            · rintro (h | h)
              · exact h
              · subst h; exact movGet_isSome.1 hh
          · rw [dictPut_keys]
        · intro n t hm
          rw [e1, e4]
          dsimp only at hm
          split at hm
          · exact hi.data n t hm
          · rename_i hh
            have hg := movGet_of_mem (dictPut_distinct hi.distinct _ _) hm
            rw [movGet_dictPut] at hg
            by_cases hn : n = ofBe data
            · rw [if_pos hn] at hg
              injection hg with hg
              subst hn
              have hno' := hno hh
              have h1 := hi.none _ hno'
              have h2 : strippedHeader done (ofBe data) = [] := by
                apply Decidable.byContradiction
                intro hne
                exact hno' (hi.unset _ hne)
              rw [h1, h2, ← hg]
              exact ⟨signature_nil, rfl⟩
            · rw [if_neg hn] at hg
              exact hi.data n t (movGet_eq_some hg)
        · rw [e3]
        · rw [e3]; exact hi.strip
        · intro n h; rw [e4] at h; rw [e2]; exact Or.inl (hi.unset n h)
        · intro n h
          rw [e2] at h
          rw [e1]
          exact hi.none n (fun hh => h (Or.inl hh))
      · rename_i hid1
        have hid1 : id ≠ trackNumberId := hid1
        split at h
        · -- the codec
          rename_i hid
          have hid : id = codecId := hid
          split at h
          · injection h with h
            injection h with h1 h2
            subst h1
            refine ⟨h2.symm, prof_plain hi (by simp) ?_ ?_ ?_ ?_ ?_ rfl rfl rfl⟩
            · intro x y e; injection e with e; exact hid1 e
            · rw [hid]; intro x y e; injection e with e; revert e; decide
            · rw [hid]; intro x y e; injection e with e; exact absurd e (by decide)
            · exact hcr
            · rw [hlen]; simp only [Int.toNat_natCast]; omega
          · simp at h
        · split at h
          · -- the algorithm
            rename_i hid
            have hid : id = compAlgoId := hid
            have hpu := hp.2 (by rw [hid]; simp)
            rw [uint_read hpu, ok_bind] at h
            split at h
            · injection h with h
              injection h with h1 h2
              subst h1
              refine ⟨h2.symm, ?_⟩
              subst hid
              have e1 : ∀ n, mkvTrackData (done ++ [MkvPart.leaf compAlgoId size data]) n = mkvTrackData done n := by
                intro n; rw [trackData_append]; simp [mkvTrackData]
              have e3 : (done ++ [MkvPart.leaf compAlgoId size data]).foldl stripStep {} = { done.foldl stripStep {} with strip := ofBe data == 3 } := by
                rw [List.foldl_append]; rfl
              have e4 : ∀ n, strippedHeader (done ++ [MkvPart.leaf compAlgoId size data]) n = strippedHeader done n := by
                intro n; unfold strippedHeader; rw [e3]
              have e2 : ∀ n, HasTrack (done ++ [MkvPart.leaf compAlgoId size data]) n ↔ HasTrack done n := by
                intro n
                rw [hasTrack_append]
                constructor
                · rintro (h | ⟨c, h, h'⟩ | ⟨x, d, h, h'⟩)
                  · exact h
                  · simp at h
                  · injection (List.mem_singleton.1 h) with h; exact absurd h (by decide)
                · exact Or.inl
              have e5 : mkvBytes [MkvPart.leaf compAlgoId size data] = (MkvPart.leaf compAlgoId size data).bytes := by simp [mkvBytes]
              refine ⟨?_, ?_, hi.distinct, ?_, ?_, ?_, ?_, ?_, ?_⟩
              · show crc32 data (crc32 (compAlgoId ++ size) s.crc) = _
                rw [show crc32 data (crc32 (compAlgoId ++ size) s.crc) = crc32 (MkvPart.leaf compAlgoId size data).bytes s.crc from hcr,
                  hi.crc, mkvBytes_append, crc32_append (mkvBytes done), e5]
              · rw [mkvBytes_append, List.length_append (as := mkvBytes done), e5, hlen]
                have := hi.total
                simp only [Int.toNat_natCast]
                omega
              · intro n; rw [e2]; exact hi.keys n
              · intro n t hm; rw [e1, e4]; exact hi.data n t hm
              · rw [e3]; exact hi.cur
              · rw [e3]
              · intro n h; rw [e4] at h; rw [e2]; exact hi.unset n h
              · intro n h; rw [e2] at h; rw [e1]; exact hi.none n h
            · simp at h
          · rename_i hid3
            have hid3 : id ≠ compAlgoId := hid3
            split at h
            · -- the settings
              rename_i hid
              have hid : id = compSettingsId := hid
              split at h
              · rename_i hst
                split at h
                · rename_i told hg
                  injection h with h
                  injection h with h1 h2
                  subst h1
                  refine ⟨h2.symm, ?_⟩
                  subst hid
                  have hg : movGet s.tracks s.cur = some told := hg
                  have hst : s.strip = true := hst
                  have e1 : ∀ n, mkvTrackData (done ++ [MkvPart.leaf compSettingsId size data]) n = mkvTrackData done n := by
                    intro n; rw [trackData_append]; simp [mkvTrackData]
                  have e3 : (done ++ [MkvPart.leaf compSettingsId size data]).foldl stripStep {} =
                      { done.foldl stripStep {} with settings := fun n => if n = s.cur then data else (done.foldl stripStep {}).settings n } := by
                    rw [List.foldl_append, List.foldl_cons, List.foldl_nil]
                    rw [stripStep_leaf, if_neg (by decide), if_neg (by decide), if_pos ⟨rfl, by rw [← hi.strip]; exact hst⟩, hi.cur]
                  have e4 : ∀ n, strippedHeader (done ++ [MkvPart.leaf compSettingsId size data]) n = if n = s.cur then data else strippedHeader done n := by
                    intro n; unfold strippedHeader; rw [e3]
                  have e2 : ∀ n, HasTrack (done ++ [MkvPart.leaf compSettingsId size data]) n ↔ HasTrack done n := by
                    intro n
                    rw [hasTrack_append]
                    constructor
                    · rintro (h | ⟨c, h, h'⟩ | ⟨x, d, h, h'⟩)
                      · exact h
                      · simp at h
                      · injection (List.mem_singleton.1 h) with h; exact absurd h (by decide)
                    · exact Or.inl
                  have e5 : mkvBytes [MkvPart.leaf compSettingsId size data] = (MkvPart.leaf compSettingsId size data).bytes := by simp [mkvBytes]
                  have hcurk : s.cur ∈ s.tracks.map (·.1) := List.mem_map.2 ⟨_, movGet_eq_some hg, rfl⟩
                  have hd := hi.data _ _ (movGet_eq_some hg)
                  refine ⟨?_, ?_, dictPut_distinct hi.distinct _ _, ?_, ?_, ?_, ?_, ?_, ?_⟩
                  · show crc32 data (crc32 (compSettingsId ++ size) s.crc) = _
                    rw [show crc32 data (crc32 (compSettingsId ++ size) s.crc) = crc32 (MkvPart.leaf compSettingsId size data).bytes s.crc from hcr,
                      hi.crc, mkvBytes_append, crc32_append (mkvBytes done), e5]
                  · rw [mkvBytes_append, List.length_append (as := mkvBytes done), e5, hlen]
                    have := hi.total
                    dsimp only
                    rw [mkvTotal_put _ _ _ { number := s.cur } rfl, hg]
                    simp only [Int.toNat_natCast, Option.getD_some]
                    omega
                  · intro n
                    rw [dictPut_keys, e2, ← hi.keys]
                    constructor
                    · rintro (h | h)
                      · exact h
                      · rw [h]; exact hcurk
                    · exact Or.inl
                  · intro n t hm
                    have hg2 := movGet_of_mem (dictPut_distinct hi.distinct _ _) hm
                    rw [movGet_dictPut] at hg2
                    rw [e1, e4]
                    by_cases hn : n = s.cur
                    · rw [if_pos hn] at hg2
                      injection hg2 with hg2
                      subst hn
                      rw [if_pos rfl, ← hg2]
                      refine ⟨hd.1, ?_⟩
                      dsimp only
                      have h2 := hd.2
                      rw [h2]
                    · rw [if_neg hn] at hg2
                      rw [if_neg hn]
                      exact hi.data n t (movGet_eq_some hg2)
                  · rw [e3]; exact hi.cur
                  · rw [e3]; exact hi.strip
                  · intro n h
                    rw [e4] at h
                    rw [e2]
                    by_cases hn : n = s.cur
                    · rw [hn]; exact (hi.keys _).1 hcurk
                    · rw [if_neg hn] at h; exact hi.unset n h
                  · intro n h; rw [e2] at h; rw [e1]; exact hi.none n h
                · simp at h
              · rename_i hst
                injection h with h
                injection h with h1 h2
                subst h1
                refine ⟨h2.symm, prof_plain hi (by simp) ?_ ?_ ?_ ?_ ?_ rfl rfl rfl⟩
                · intro x y e; injection e with e; exact hid1 e
                · intro x y e; injection e with e; exact hid3 e
                · intro _ _ _; simpa using hst
                · exact hcr
                · rw [hlen]; simp only [Int.toNat_natCast]; omega
            · rename_i hid4
              have hid4 : id ≠ compSettingsId := hid4
              have hfin : ∀ s'', s'' = { s with crc := crc32 data (crc32 (id ++ size) s.crc), other := s.other + (id ++ size).length + data.length } →
                  ProfInv (done ++ [MkvPart.leaf id size data]) s'' := by
                rintro s'' rfl
                refine prof_plain hi (by simp) ?_ ?_ ?_ ?_ ?_ rfl rfl rfl
                · intro x y e; injection e with e; exact hid1 e
                · intro x y e; injection e with e; exact hid3 e
                · intro x y e; injection e with e; exact absurd e hid4
                · exact hcr
                · rw [hlen]; dsimp only; omega
              split at h
              · simp only [bind_eq_ok] at h
                obtain ⟨_, _, h⟩ := h
                injection h with h
                injection h with h1 h2
                exact ⟨h2.symm, hfin _ h1.symm⟩
              · injection h with h
                injection h with h1 h2
                exact ⟨h2.symm, hfin _ h1.symm⟩

theorem prof_fold {parts : List MkvPart} : ∀ {done : List MkvPart} {s s' : MkvProfile} {pos : Nat},
    (∀ p ∈ parts, p.Ok ∧ ProfPart p) → ProfInv done s →
    mkvFold mkvProfileHow mkvProfileItem (parts.map fun p => (p, true)) pos s = .ok s' → ProfInv (done ++ parts) s' := by
  induction parts with
  | nil => intro done s s' pos _ hi h; injection h with h; subst h; rw [List.append_nil]; exact hi
  | cons p parts ih =>
    intro done s s' pos hp hi h
    rw [List.map_cons, mkvFold] at h
    obtain ⟨hok, hpp⟩ := hp p (by simp)
    dsimp only at h
    rw [profile_seen hok hpp] at h
    simp only [bind_eq_ok] at h
    obtain ⟨⟨s1, d⟩, h1, h⟩ := h
    obtain ⟨hd, hi'⟩ := prof_step hi hok hpp h1
    subst hd
    dsimp only at h
    rw [if_neg (by simp)] at h
    have := ih (fun q hq => hp q (by simp [hq])) hi' h
    rw [List.append_assoc] at this
    exact this

theorem itemsBytes_all (parts : List MkvPart) : mkvItemsBytes (parts.map fun p => (p, true)) = mkvBytes parts := by
  induction parts with
  | nil => rfl
  | cons p parts ih =>
    rw [List.map_cons, mkvItemsBytes_cons, ih]
    simp [mkvBytes, MkvItem.bytes, MkvPart.bytes]

theorem room_all {parts : List MkvPart} (h : MkvFits parts) : RoomAll (parts.map fun p => (p, true)) := by
  induction parts with
  | nil => trivial
  | cons p parts ih =>
    rw [List.map_cons]
    cases p with
    | enter id size => exact ⟨by rw [itemsBytes_all]; exact h.1, ih h.2⟩
    | leaf id size data => exact ⟨rfl, ih h⟩
    | block b => exact ⟨rfl, ih h⟩

/-- The tracks that are found in a sample. -/
structure MkvTracksOf (parts : List MkvPart) (ts : MkvTracks) : Prop where
  distinct : ts.Pairwise fun a b => a.1 ≠ b.1
  keys : ∀ n, n ∈ ts.map (·.1) ↔ HasTrack parts n
  data : ∀ n t, (n, t) ∈ ts → IsSignature t.sig (mkvTrackData parts n) ∧
    t = { number := n, len := (mkvTrackData parts n).length, sig := t.sig, settings := strippedHeader parts n }

theorem mkvProfile_ok {parts : List MkvPart} {crc : BitVec 32} {ts : MkvTracks} (hp : ∀ p ∈ parts, p.Ok ∧ ProfPart p)
    (hf : MkvFits parts) (h : mkvProfile (mkvBytes parts) = .ok (crc, ts)) :
    crc = crc32 (mkvBytes parts) 0 ∧ MkvTracksOf parts ts := by
  unfold mkvProfile at h
  rw [← itemsBytes_all, mkvWalk_items] at h
  · simp only [bind_eq_ok] at h
    obtain ⟨s, h1, h⟩ := h
    split at h
    · simp [throw_eq_error] at h
    · injection h with h
      injection h with h2 h3
      have hi : ProfInv [] {} := by
        refine ⟨rfl, by simp [mkvBytes, mkvTotal], List.Pairwise.nil, ?_, by simp, rfl, rfl, ?_, ?_⟩
        · intro n; simp [HasTrack]
        · intro n h; exact absurd rfl h
        · intro n _; rfl
      have := prof_fold hp hi h1
      rw [List.nil_append] at this
      rw [← h2, ← h3]
      exact ⟨this.crc, this.distinct, this.keys, this.data⟩
  · intro x hx
    obtain ⟨p, hpm, rfl⟩ := List.mem_map.1 hx
    exact (hp p hpm).1
  · intro x hx s pos
    obtain ⟨p, hpm, rfl⟩ := List.mem_map.1 hx
    exact profile_suits' (hp p hpm).1 (hp p hpm).2 s pos
  · intro _; exact room_all hf

end Rescene
