import Verif.Props.InfoContents
import Verif.Spec.InfoAnySize

/-! C58: the size of an archived file, whatever its headers say. -/

namespace Rescene.Props

open Rescene Rescene.Spec

theorem arch_fold {lower upper : Str → Str} {data : Bytes} {i : Info} {bs : List Block} (hb : readAll data = .ok bs)
    (h : info lower upper data = .ok i) (name : Str) :
    i.archived.lookup name = (partsOf name bs).foldl stepArch none := by
  unfold info at h
  rw [hb, ok_bind, bind_eq_ok] at h
  obtain ⟨j, hj, h⟩ := h
  simp only [pure_eq_ok, Except.ok.injEq] at h
  obtain ⟨_, _, _, _, h5, _⟩ := infoLoop_fields bs hj
  rw [← h]
  show j.archived.lookup name = _
  rw [h5, archived_lookup]
  rfl

/-- The size after a part. -/
def stepSize (c : Bool) (s : Nat) (f : FileFields) : Nat :=
  let s := if f.unpackedSize = 0xFFFFFFFF ∧ c = false then s + f.packedSize else s
  if f.unpackedSize ≠ 0xFFFFFFFFFFFFFFFF ∧ s = 0 then f.unpackedSize else s

theorem step_some (a : ArchInfo) (f : FileFields) : ∃ b, stepArch (some a) f = some b ∧
    b.size = stepSize a.compressed a.size f ∧ b.compressed = a.compressed := ⟨_, rfl, rfl, rfl⟩

theorem step_none (f : FileFields) : ∃ b, stepArch none f = some b ∧
    b.size = stepSize (f.method != 0x30) 0 f ∧ b.compressed = (f.method != 0x30) := by
  refine ⟨_, rfl, ?_, rfl⟩
  simp only [Option.getD_none, newArch, stepSize]
  by_cases h1 : f.unpackedSize = 0xFFFFFFFF
  · simp [h1]
  · by_cases h2 : f.unpackedSize = 0xFFFFFFFFFFFFFFFF
    · simp [h2]
    · simp [h1, h2]

theorem fold_some (ps : List FileFields) : ∀ a : ArchInfo, ∃ b, ps.foldl stepArch (some a) = some b ∧
    b.size = ps.foldl (stepSize a.compressed) a.size := by
  induction ps with
  | nil => intro a; exact ⟨a, rfl, rfl⟩
  | cons f t ih =>
    intro a
    obtain ⟨b, h1, h2, h3⟩ := step_some a f
    obtain ⟨b', h4, h5⟩ := ih b
    exact ⟨b', by rw [List.foldl_cons, h1, h4], by rw [h5, h2, h3, List.foldl_cons]⟩

theorem fold_none (ps : List FileFields) (first : FileFields) (hf : ps.head? = some first) :
    ∃ b, ps.foldl stepArch none = some b ∧ b.size = ps.foldl (stepSize (first.method != 0x30)) 0 := by
  cases ps with
  | nil => simp at hf
  | cons f t =>
    simp only [List.head?_cons, Option.some.injEq] at hf
    subst hf
    obtain ⟨b, h1, h2, h3⟩ := step_none f
    obtain ⟨b', h4, h5⟩ := fold_some t b
    exact ⟨b', by rw [List.foldl_cons, h1, h4], by rw [h5, h2, h3, List.foldl_cons]⟩

theorem size_skip (c : Bool) (ps : List FileFields) (h : ∀ g ∈ ps, NoSize g) : ps.foldl (stepSize c) 0 = 0 := by
  induction ps with
  | nil => rfl
  | cons f t ih =>
    have hf : stepSize c 0 f = 0 := by
      have := h f (by simp)
      unfold NoSize Unknown64 at this
      unfold stepSize
      rcases this with h | h <;> simp [h]
    rw [List.foldl_cons, hf]
    exact ih fun g hg => h g (List.mem_cons_of_mem _ hg)

theorem size_packed (ps : List FileFields) : ∀ s, 0 < s →
    ps.foldl (stepSize true) s = s ∧ ps.foldl (stepSize false) s = s + unknownData ps := by
  induction ps with
  | nil => intro s _; simp [unknownData]
  | cons f t ih =>
    intro s hs
    rw [List.foldl_cons, List.foldl_cons]
    have h1 : stepSize true s f = s := by
      unfold stepSize; simp; omega
    have h2 : stepSize false s f = s + (if f.unpackedSize = 0xFFFFFFFF then f.packedSize else 0) := by
      unfold stepSize
      by_cases h : f.unpackedSize = 0xFFFFFFFF
      · simp [h]; omega
      · simp [h]; omega
    rw [h1, h2]
    refine ⟨(ih s hs).1, ?_⟩
    rw [(ih _ (by omega)).2]
    unfold unknownData
    by_cases h : f.unpackedSize = 0xFFFFFFFF
    · simp [h]; omega
    · simp [h]

theorem unknown_skip (ps : List FileFields) (h : ∀ g ∈ ps, NoSize g) (t : List FileFields) :
    unknownData (ps ++ t) = unknownData t := by
  have : ps.filter (fun f => f.unpackedSize = 2 ^ 32 - 1) = [] := by
    rw [List.filter_eq_nil_iff]
    intro g hg
    have := h g hg
    unfold NoSize Unknown64 at this
    rcases this with h | h <;> simp [h]
  unfold unknownData
  rw [List.filter_append, this, List.nil_append]

/-- C58: the size reported for an archived file, whatever its headers say.  It is the first size a
header states.  This is the size in the last header when all others say "not known", as custom
packers do.  Later headers with other sizes do not count.  For stored files the data of all parts
whose header says "not known" with 32 bits is added.  When no header states a size the result is
zero. -/
theorem info_archived_size_any {lower upper : Str → Str} {data : Bytes} {i : Info} {bs : List Block}
    (hb : readAll data = .ok bs) (h : info lower upper data = .ok i) (name : Str) (first : FileFields)
    (hf : (partsOf name bs).head? = some first) :
    ∃ a, i.archived.lookup name = some a ∧
      (∀ u, FirstStated (partsOf name bs) u →
        a.size = if first.method = 0x30 then u + unknownData (partsOf name bs) else u) ∧
      (FirstUnknown (partsOf name bs) → first.method = 0x30 → a.size = unknownData (partsOf name bs)) ∧
      ((∀ f ∈ partsOf name bs, NoSize f) → a.size = 0) := by
  obtain ⟨a, h1, h2⟩ := fold_none _ first hf
  refine ⟨a, by rw [arch_fold hb h, h1], ?_, ?_, ?_⟩
  · rintro u ⟨pre, f, post, hp, h3, h4, h5, rfl⟩
    rw [h2, hp, List.foldl_append, size_skip _ pre h3, List.foldl_cons, unknown_skip pre h3]
    unfold NoSize Unknown64 at h4
    unfold Unknown32 at h5
    have hs : stepSize (first.method != 0x30) 0 f = f.unpackedSize := by
      unfold stepSize
      simp only [show f.unpackedSize ≠ 0xFFFFFFFF from h5, false_and, if_false]
      rw [if_pos ⟨by omega, trivial⟩]
    rw [hs]
    have hz := size_packed post f.unpackedSize (by omega)
    have hu : unknownData (f :: post) = unknownData post := by
      unfold unknownData
      rw [List.filter_cons_of_neg (by simpa using h5)]
    rw [hu]
    by_cases hm : first.method = 0x30
    · rw [if_pos hm, ← hz.2]; simp [hm]
    · rw [if_neg hm, ← hz.1]
      rw [show (first.method != 0x30) = true by simp [hm], hz.1]
      exact hz.1
  · rintro ⟨pre, f, post, hp, h3, h4, h5⟩ hm
    rw [h2, hp, List.foldl_append, size_skip _ pre h3, List.foldl_cons, unknown_skip pre h3]
    unfold Unknown32 at h4
    have hs : stepSize (first.method != 0x30) 0 f = f.packedSize := by
      unfold stepSize
      simp [hm, h4]; omega
    rw [hs, show (first.method != 0x30) = false by simp [hm], (size_packed post _ h5).2]
    unfold unknownData
    rw [List.filter_cons_of_pos (by simpa using h4)]
    rfl
  · intro h3
    rw [h2, size_skip _ _ h3]

/-- A volume with a part of a stored file `x`, with 64-bit sizes: the packed size is that of
`packed`, the low and high half of the size are `low` and `high`. -/
def exCustom (low high packed : Bytes) : Bytes :=
  [0x52, 0x61, 0x72, 0x21, 0x1A, 0x07, 0x00] ++ [0, 0, 0x73, 0, 0, 13, 0, 0, 0, 0, 0, 0, 0] ++
    ([0, 0, 0x74, 0, 0x81, 41, 0, UInt8.ofNat packed.length, 0, 0, 0] ++ low ++ [0] ++ [0, 0, 0, 0] ++
      [0, 0, 0, 0, 20, 0x30, 1, 0, 0, 0, 0, 0] ++ [0, 0, 0, 0] ++ high ++ [0x78] ++ packed)

/-- The SRR of two volumes. -/
def exTwoSrr (a b : Bytes) : Res Bytes :=
  createSrr exDig id 5 (fun p => if p = str "/a" then some a else if p = str "/b" then some b else none)
    (str "app") [] [⟨str "/a", str "/a", str "a.rar"⟩, ⟨str "/b", str "/b", str "a.r00"⟩] false false

/-- The size fields of the parts of `x`. -/
def exFields (data : Bytes) : Res (List (Nat × Nat)) :=
  (readAll data).map fun bs => (partsOf (str "x") bs).map fun f => (f.unpackedSize, f.packedSize)

/-- A custom packer: the first header says "not known", the last one has the size. -/
example : ((exTwoSrr (exCustom [255, 255, 255, 255] [255, 255, 255, 255] [1, 2]) (exCustom [3, 0, 0, 0] [0, 0, 0, 0] [3])) >>=
      exFields) = .ok [(2 ^ 64 - 1, 2), (3, 1)] ∧
    ((exTwoSrr (exCustom [255, 255, 255, 255] [255, 255, 255, 255] [1, 2]) (exCustom [3, 0, 0, 0] [0, 0, 0, 0] [3])) >>=
      info exLower id).map (fun i => i.archived.map fun x => (x.1, x.2.size)) = .ok [(str "x", 3)] := by
  constructor <;> decide +kernel

/-- Headers that disagree: the first size counts, and the data of a part of unknown size is added. -/
example : ((exTwoSrr (exCustom [7, 0, 0, 0] [0, 0, 0, 0] [1, 2]) (exCustom [3, 0, 0, 0] [0, 0, 0, 0] [3])) >>=
      info exLower id).map (fun i => i.archived.map fun x => (x.1, x.2.size)) = .ok [(str "x", 7)] ∧
    ((exTwoSrr (exCustom [7, 0, 0, 0] [0, 0, 0, 0] [1, 2]) (exUnknown [3])) >>=
      info exLower id).map (fun i => i.archived.map fun x => (x.1, x.2.size)) = .ok [(str "x", 8)] := by
  constructor <;> decide +kernel

/-- The hypotheses are met by such headers. -/
example (f g : FileFields) (hf : f.unpackedSize = 2 ^ 64 - 1) (hg : g.unpackedSize = 3) : FirstStated [f, g] 3 :=
  ⟨[f], g, [], rfl, by simp [NoSize, Unknown64, hf], by simp [NoSize, Unknown64, hg], by simp [Unknown32, hg], hg⟩

/-- C58, violation: when no header has the size of a stored file, and says so with 64 bits, the size
reported is zero, not the sum of the parts. -/
theorem info_unknown64_zero :
    ((exTwoSrr (exCustom [255, 255, 255, 255] [255, 255, 255, 255] [1, 2]) (exCustom [255, 255, 255, 255] [255, 255, 255, 255] [3])) >>=
      info exLower id).map (fun i => i.archived.map fun x => (x.1, x.2.size)) = .ok [(str "x", 0)] := by
  decide +kernel

end Rescene.Props
