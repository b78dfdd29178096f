import Verif.Lemmas.Mov
/-
The tables of MP4 tracks.
-/
namespace Rescene
open Spec

theorem beTable_numbers {k : Nat} {l : List Nat} (hl : ∀ x ∈ l, x < 256 ^ k) (b : Bytes) : ∀ (pre : Bytes),
    beTable k (pre ++ (numbers k l ++ b)) l.length pre.length = .ok l := by
  induction l with
  | nil => intro pre; rfl
  | cons x l ih =>
    intro pre
    have e : pre ++ (numbers k (x :: l) ++ b) = pre ++ (be k x ++ (numbers k l ++ b)) := by simp [numbers]
    have e2 : pre ++ (be k x ++ (numbers k l ++ b)) = (pre ++ be k x) ++ (numbers k l ++ b) := by simp
    rw [e, List.length_cons, beTable, unpackBeAt_append pre _ rfl (hl x (by simp)), ok_bind, e2,
      show pre.length + k = (pre ++ be k x).length by simp, ih (fun y hy => hl y (by simp [hy]))]
    rfl

def runBytes (r : Nat × Nat × Nat) : Bytes := be 4 r.1 ++ (be 4 r.2.1 ++ be 4 r.2.2)

theorem stscTable_runs {runs : List (Nat × Nat × Nat)} (hr : ∀ r ∈ runs, r.1 < 2 ^ 32 ∧ r.2.1 < 2 ^ 32) (b : Bytes) :
    ∀ (pre : Bytes), stscTable (pre ++ (runs.flatMap runBytes ++ b)) runs.length pre.length =
      .ok (runs.map fun r => (r.1, some r.2.1)) := by
  induction runs with
  | nil => intro pre; rfl
  | cons r l ih =>
    intro pre
    obtain ⟨h1, h2⟩ := hr r (by simp)
    have e : pre ++ ((r :: l).flatMap runBytes ++ b) = pre ++ (be 4 r.1 ++ (be 4 r.2.1 ++ (be 4 r.2.2 ++ (l.flatMap runBytes ++ b)))) := by
      simp [runBytes]
    have e1 : pre ++ (be 4 r.1 ++ (be 4 r.2.1 ++ (be 4 r.2.2 ++ (l.flatMap runBytes ++ b)))) =
      (pre ++ be 4 r.1) ++ (be 4 r.2.1 ++ (be 4 r.2.2 ++ (l.flatMap runBytes ++ b))) := by simp
    have e2 : pre ++ (be 4 r.1 ++ (be 4 r.2.1 ++ (be 4 r.2.2 ++ (l.flatMap runBytes ++ b)))) =
      (pre ++ runBytes r) ++ (l.flatMap runBytes ++ b) := by simp [runBytes]
    rw [e, List.length_cons, stscTable, if_pos (by simp; omega), unpackBeAt_append pre _ rfl (by omega), ok_bind]
    have u2 : unpackBeAt 4 (pre ++ (be 4 r.1 ++ (be 4 r.2.1 ++ (be 4 r.2.2 ++ (l.flatMap runBytes ++ b))))) (pre.length + 4) =
        .ok r.2.1 := by
      rw [e1]
      exact unpackBeAt_append _ _ (by simp) (by omega)
    rw [u2, ok_bind, e2, show pre.length + 12 = (pre ++ runBytes r).length by simp [runBytes], ih (fun y hy => hr y (by simp [hy]))]
    rfl

/-- The entry of a chunk, or the last one. -/
def lensAt (l : List (Nat × Option Nat)) (i : Nat) : Option (Nat × Option Nat) :=
  match l[i]? with
  | some e => some e
  | none => l.getLast?

/-- The count of the run of a chunk. -/
def runAt (prev : Option Nat) (runs : List (Nat × Nat × Nat)) (k : Nat) : Option Nat :=
  match (runs.filter fun r => r.1 ≤ k).getLast? with
  | some r => some r.2.1
  | none => prev

def convRuns (runs : List (Nat × Nat × Nat)) : List (Nat × Option Nat) := runs.map fun r => (r.1, some r.2.1)

theorem stscGo_cons (index : Nat) (prev : Option Nat) (r : Nat × Nat × Nat) (rest : List (Nat × Nat × Nat)) :
    stscGo index prev (convRuns (r :: rest)) =
      (List.range' index (r.1 - index)).map (fun i => (i, prev)) ++
        (r.1, some r.2.1) :: stscGo (max index r.1 + 1) (some r.2.1) (convRuns rest) := rfl

theorem stscGo_ne {index : Nat} {prev : Option Nat} {runs : List (Nat × Nat × Nat)} (h : runs ≠ []) :
    stscGo index prev (convRuns runs) ≠ [] := by
  cases runs with
  | nil => exact absurd rfl h
  | cons r rest => rw [stscGo_cons]; simp

theorem runAt_cons {prev : Option Nat} {r : Nat × Nat × Nat} {rest : List (Nat × Nat × Nat)} {k : Nat} (h : r.1 ≤ k) :
    runAt prev (r :: rest) k = runAt (some r.2.1) rest k := by
  unfold runAt
  rw [List.filter_cons_of_pos (by simpa using h), List.getLast?_cons]
  cases (rest.filter fun r => decide (r.1 ≤ k)).getLast? <;> rfl

theorem runAt_before {prev : Option Nat} {runs : List (Nat × Nat × Nat)} {k : Nat} (h : ∀ r ∈ runs, k < r.1) :
    runAt prev runs k = prev := by
  unfold runAt
  rw [List.filter_eq_nil_iff.2 (by intro r hr; have := h r hr; simp; omega)]
  rfl

theorem stsc_at {runs : List (Nat × Nat × Nat)} : ∀ {index i : Nat} {prev : Option Nat}, runs ≠ [] →
    runs.Pairwise (fun a b => a.1 < b.1) → (∀ r ∈ runs, index ≤ r.1) →
    (lensAt (stscGo index prev (convRuns runs)) i).map (·.2) = some (runAt prev runs (index + i)) := by
  induction runs with
  | nil => intro _ _ _ h; exact absurd rfl h
  | cons r rest ih =>
    intro index i prev _ hp hi
    rw [List.pairwise_cons] at hp
    have h1 := hi r (by simp)
    rw [stscGo_cons, show max index r.1 = r.1 by omega]
    obtain ⟨A, hA⟩ : ∃ A, A = (List.range' index (r.1 - index)).map (fun i => (i, prev)) := ⟨_, rfl⟩
    have hAl : A.length = r.1 - index := by rw [hA]; simp
    rw [← hA]
    by_cases c1 : i < r.1 - index
    · have : (A ++ (r.1, some r.2.1) :: stscGo (r.1 + 1) (some r.2.1) (convRuns rest))[i]? = some (index + i, prev) := by
        rw [List.getElem?_append_left (by omega), hA]
        simp [List.getElem?_range' c1]
      unfold lensAt
      rw [this, runAt_before]
      · rfl
      · intro q hq
        rcases List.mem_cons.1 hq with rfl | hq
        · omega
        · have := hp.1 q hq; omega
    · by_cases c2 : i = r.1 - index
      · have : (A ++ (r.1, some r.2.1) :: stscGo (r.1 + 1) (some r.2.1) (convRuns rest))[i]? = some (r.1, some r.2.1) := by
          rw [List.getElem?_append_right (by omega), hAl, c2]; simp
        unfold lensAt
        rw [this, runAt_cons (by omega), runAt_before]
        · rfl
        · intro q hq; have := hp.1 q hq; omega
      · obtain ⟨i', rfl⟩ : ∃ i', i = r.1 - index + 1 + i' := ⟨i - (r.1 - index + 1), by omega⟩
        have hk : index + (r.1 - index + 1 + i') = r.1 + 1 + i' := by omega
        have hget : (A ++ (r.1, some r.2.1) :: stscGo (r.1 + 1) (some r.2.1) (convRuns rest))[r.1 - index + 1 + i']? =
            (stscGo (r.1 + 1) (some r.2.1) (convRuns rest))[i']? := by
          rw [List.getElem?_append_right (by omega), hAl,
            show r.1 - index + 1 + i' - (r.1 - index) = i' + 1 by omega, List.getElem?_cons_succ]
        rw [hk, runAt_cons (by omega)]
        by_cases hr : rest = []
        · subst hr
          unfold lensAt
          rw [hget]
          simp [convRuns, stscGo, runAt]
        · rw [← ih (i := i') hr hp.2 (fun q hq => by have := hp.1 q hq; omega)]
          unfold lensAt
          rw [hget, List.getLast?_append, List.getLast?_cons]
          cases hg : (stscGo (r.1 + 1) (some r.2.1) (convRuns rest))[i']? with
          | some e => rfl
          | none =>
            cases hl : (stscGo (r.1 + 1) (some r.2.1) (convRuns rest)).getLast? with
            | some e => rfl
            | none => exact absurd (List.getLast?_eq_none_iff.1 hl) (stscGo_ne hr)

theorem samplesIn_eq (l : List (Nat × Option Nat)) (i : Nat) :
    samplesIn l i = match lensAt l i with
      | none => .error .indexError
      | some (_, none) => .error .typeError
      | some (_, some n) => .ok n := by
  unfold samplesIn lensAt
  rfl

theorem samplesIn_runs {runs : List (Nat × Nat × Nat)} (hp : runs.Pairwise (fun a b => a.1 < b.1)) (h1 : ∀ r ∈ runs, 1 ≤ r.1)
    {i c : Nat} (h : ((runs.filter fun r => r.1 ≤ i + 1).getLast?.map fun r => r.2.1) = some c) :
    samplesIn (stscExpand (convRuns runs)) i = .ok c := by
  have hne : runs ≠ [] := by rintro rfl; simp at h
  have hs := stsc_at (i := i) (prev := none) hne hp h1
  have hr : runAt none runs (1 + i) = some c := by
    unfold runAt
    rw [Nat.add_comm 1 i]
    cases hg : (runs.filter fun r => decide (r.1 ≤ i + 1)).getLast? with
    | none => rw [hg] at h; simp at h
    | some r => rw [hg] at h; simpa using h
  rw [hr] at hs
  rw [samplesIn_eq]
  unfold stscExpand
  cases hl : lensAt (stscGo 1 none (convRuns runs)) i with
  | none => rw [hl] at hs; simp at hs
  | some e =>
    obtain ⟨a, x⟩ := e
    rw [hl] at hs
    simp at hs
    subst hs
    rfl

/-! ### Atoms with tables -/

def isOff (l : Bytes × Bytes) : Bool := l.1 == stcoType || l.1 == co64Type
def isRun (l : Bytes × Bytes) : Bool := l.1 == stscType
def isSize (l : Bytes × Bytes) : Bool := l.1 == stszType || l.1 == stz2Type

theorem movTable_off {o : Bytes × Bytes} {offs : List Nat} (h : OffsetTable o offs) (t : MovTables) :
    movTable (some t) o.1 o.2 = .ok (some { t with offsets := t.offsets ++ offs }) := by
  obtain ⟨k, hk, hl, ho, v, b, hv, e⟩ := h
  have hu : unpackBeAt 4 o.2 4 = .ok offs.length := by rw [e]; exact unpackBeAt_append v _ hv (by omega)
  have ht : beTable k o.2 offs.length 8 = .ok offs := by
    rw [e, show v ++ (be 4 offs.length ++ (numbers k offs ++ b)) = (v ++ be 4 offs.length) ++ (numbers k offs ++ b) by simp,
      show 8 = (v ++ be 4 offs.length).length by simp [hv]]
    exact beTable_numbers ho b _
  unfold movTable
  rcases hk with ⟨h1, rfl⟩ | ⟨h1, rfl⟩
  · rw [if_pos (Or.inl (show o.1 = aStco from h1))]
    dsimp only
    rw [hu, ok_bind, if_pos (show o.1 = aStco from h1), ht]
    rfl
  · rw [if_pos (Or.inr (show o.1 = aCo64 from h1))]
    dsimp only
    rw [hu, ok_bind, if_neg (show ¬ o.1 = aStco by rw [h1]; decide), ht]
    rfl

theorem movTable_run {type data : Bytes} {counts : List Nat} (hty : type = stscType) (h : RunTable data counts) :
    ∃ lens, (∀ t : MovTables, t.lens = [] → movTable (some t) type data = .ok (some { t with lens := lens })) ∧
      ∀ i c, counts[i]? = some c → samplesIn lens i = .ok c := by
  obtain ⟨runs, hl, hr, hp, hc, h1, v, b, hv, e⟩ := h
  refine ⟨stscExpand (convRuns runs), fun t ht => ?_, fun i c hi => samplesIn_runs hp h1 (hc i c hi)⟩
  have hu : unpackBeAt 4 data 4 = .ok runs.length := by rw [e]; exact unpackBeAt_append v _ hv (by omega)
  have htab : stscTable data runs.length 8 = .ok (convRuns runs) := by
    rw [e, show v ++ (be 4 runs.length ++ ((runs.flatMap fun r => be 4 r.1 ++ (be 4 r.2.1 ++ be 4 r.2.2)) ++ b)) =
      (v ++ be 4 runs.length) ++ (runs.flatMap runBytes ++ b) by
        rw [List.append_assoc]; rfl,
      show 8 = (v ++ be 4 runs.length).length by simp [hv]]
    exact stscTable_runs hr b _
  unfold movTable
  subst hty
  rw [if_neg (by decide), if_pos (by decide), hu, ok_bind]
  simp only [Option.isNone_some, Bool.false_eq_true, if_false, htab, ok_bind, ht, List.nil_append]
  rfl

theorem movTable_size {type data : Bytes} {sizes : List Nat} (hty : type = stszType) (h : SizeTable data sizes) (t : MovTables) :
    movTable (some t) type data = .ok (some { t with sizes := t.sizes ++ sizes }) := by
  obtain ⟨hl, hs, v, b, hv, h⟩ := h
  unfold movTable
  subst hty
  rw [if_neg (by decide), if_neg (by decide), if_pos (by decide)]
  rcases h with e | ⟨s, h0, h1, hrep, e⟩
  · have hu : unpackBeAt 4 data 4 = .ok 0 := by rw [e]; exact unpackBeAt_append v _ hv (by omega)
    have hu2 : unpackBeAt 4 data 8 = .ok sizes.length := by
      rw [e, show v ++ (be 4 0 ++ (be 4 sizes.length ++ (numbers 4 sizes ++ b))) =
        (v ++ be 4 0) ++ (be 4 sizes.length ++ (numbers 4 sizes ++ b)) by simp]
      exact unpackBeAt_append _ _ (by simp [hv]) (by omega)
    have ht : beTable 4 data sizes.length 12 = .ok sizes := by
      rw [e, show v ++ (be 4 0 ++ (be 4 sizes.length ++ (numbers 4 sizes ++ b))) =
        (v ++ (be 4 0 ++ be 4 sizes.length)) ++ (numbers 4 sizes ++ b) by simp,
        show 12 = (v ++ (be 4 0 ++ be 4 sizes.length)).length by simp [hv]]
      exact beTable_numbers hs b _
    rw [hu, ok_bind, hu2, ok_bind, if_pos rfl]
    dsimp only
    rw [ht]
    rfl
  · have hu : unpackBeAt 4 data 4 = .ok s := by rw [e]; exact unpackBeAt_append v _ hv (by omega)
    have hu2 : unpackBeAt 4 data 8 = .ok sizes.length := by
      rw [e, show v ++ (be 4 s ++ (be 4 sizes.length ++ b)) = (v ++ be 4 s) ++ (be 4 sizes.length ++ b) by simp]
      exact unpackBeAt_append _ _ (by simp [hv]) (by omega)
    rw [hu, ok_bind, hu2, ok_bind, if_neg (by omega)]
    dsimp only
    rw [← hrep]
    rfl

theorem movTable_other {l : Bytes × Bytes} (h1 : isOff l = false) (h2 : isRun l = false) (h3 : isSize l = false)
    (cur : Option MovTables) (data : Bytes) : movTable cur l.1 data = .ok cur := by
  simp only [isOff, isRun, isSize, Bool.or_eq_false_iff, beq_eq_false_iff_ne] at h1 h2 h3
  unfold movTable
  rw [if_neg (fun h => h.elim h1.1 h1.2), if_neg (show ¬ l.1 = aStsc from h2),
    if_neg (fun h => h.elim h3.1 h3.2)]

/-- What the tables of a track section say. -/
structure Decoded (rest : List (Bytes × Bytes)) (full : MovTables) : Prop where
  off : ∃ o, rest.filter isOff = [o] ∧ ∀ t : MovTables, t.offsets = [] →
    movTable (some t) o.1 o.2 = .ok (some { t with offsets := full.offsets })
  run : ∃ o, rest.filter isRun = [o] ∧ ∀ t : MovTables, t.lens = [] →
    movTable (some t) o.1 o.2 = .ok (some { t with lens := full.lens })
  size : ∃ o, rest.filter isSize = [o] ∧ ∀ t : MovTables, t.sizes = [] →
    movTable (some t) o.1 o.2 = .ok (some { t with sizes := full.sizes })

/-- The tables after these atoms. -/
def tablesAfter (full : MovTables) (done : List (Bytes × Bytes)) : MovTables :=
  ⟨if done.any isOff then full.offsets else [], if done.any isRun then full.lens else [],
    if done.any isSize then full.sizes else []⟩

theorem filter_single {α : Type} {q : α → Bool} {a b : List α} {l o : α} (h : (a ++ l :: b).filter q = [o]) (hl : q l = true) :
    l = o ∧ a.any q = false := by
  rw [List.filter_append, List.filter_cons_of_pos hl] at h
  cases ha : a.filter q with
  | nil =>
    rw [ha] at h
    simp at h
    refine ⟨h.1, ?_⟩
    rw [List.filter_eq_nil_iff] at ha
    simpa using ha
  | cons x xs => rw [ha] at h; simp at h

theorem tablesAfter_snoc (full : MovTables) (done : List (Bytes × Bytes)) (l : Bytes × Bytes) :
    tablesAfter full (done ++ [l]) =
      ⟨if done.any isOff || isOff l then full.offsets else [], if done.any isRun || isRun l then full.lens else [],
        if done.any isSize || isSize l then full.sizes else []⟩ := by
  have h : ∀ q : Bytes × Bytes → Bool, (done ++ [l]).any q = (done.any q || q l) := by intro q; simp
  unfold tablesAfter
  rw [h, h, h]

theorem tables_step {rest done more : List (Bytes × Bytes)} {l : Bytes × Bytes} {full : MovTables} (hd : Decoded rest full)
    (e : rest = done ++ l :: more) :
    movTable (some (tablesAfter full done)) l.1 l.2 = .ok (some (tablesAfter full (done ++ [l]))) := by
  obtain ⟨⟨o, ho, hom⟩, ⟨r, hr, hrm⟩, ⟨z, hz, hzm⟩⟩ := hd
  have ex : isOff l = true → isRun l = false ∧ isSize l = false := by
    simp only [isOff, isRun, isSize, Bool.or_eq_true, beq_iff_eq]
    rintro (h | h) <;> rw [h] <;> decide
  have ex2 : isRun l = true → isSize l = false := by
    simp only [isRun, isSize, beq_iff_eq]
    intro h; rw [h]; decide
  subst e
  rw [tablesAfter_snoc]
  by_cases c1 : isOff l = true
  · obtain ⟨rfl, ha⟩ := filter_single ho c1
    rw [hom _ (by simp [tablesAfter, ha])]
    rw [c1, (ex c1).1, (ex c1).2]
    simp only [tablesAfter, Bool.or_true, Bool.or_false, if_true]
  · by_cases c2 : isRun l = true
    · obtain ⟨rfl, ha⟩ := filter_single hr c2
      rw [hrm _ (by simp [tablesAfter, ha])]
      rw [c2, ex2 c2, Bool.eq_false_iff.2 c1]
      simp only [tablesAfter, Bool.or_true, Bool.or_false, if_true]
    · by_cases c3 : isSize l = true
      · obtain ⟨rfl, ha⟩ := filter_single hz c3
        rw [hzm _ (by simp [tablesAfter, ha])]
        rw [c3, Bool.eq_false_iff.2 c1, Bool.eq_false_iff.2 c2]
        simp only [tablesAfter, Bool.or_true, Bool.or_false, if_true]
      · rw [movTable_other (by simpa using c1) (by simpa using c2) (by simpa using c3)]
        rw [Bool.eq_false_iff.2 c1, Bool.eq_false_iff.2 c2, Bool.eq_false_iff.2 c3]
        simp only [tablesAfter, Bool.or_false]

theorem tablesAfter_all {rest : List (Bytes × Bytes)} {full : MovTables} (hd : Decoded rest full) :
    tablesAfter full rest = full := by
  obtain ⟨⟨o, ho, _⟩, ⟨r, hr, _⟩, ⟨z, hz, _⟩⟩ := hd
  have key : ∀ {q : Bytes × Bytes → Bool} {x : Bytes × Bytes}, rest.filter q = [x] → rest.any q = true := by
    intro q x h
    have : x ∈ rest.filter q := by rw [h]; simp
    rw [List.mem_filter] at this
    rw [List.any_eq_true]
    exact ⟨x, this⟩
  simp [tablesAfter, key ho, key hr, key hz]

/-- Tables that describe a track. -/
structure TablesOf (full : MovTables) (t : MovLayout) : Prop where
  offsets : full.offsets = t.chunks.map (·.1)
  sizes : full.sizes = t.chunks.flatMap (·.2)
  lens : ∀ i c, t.chunks[i]? = some c → samplesIn full.lens i = .ok c.2.length

theorem describes_decoded {ls : List (Bytes × Bytes)} {t : MovLayout} (h : Describes ls t) :
    ∃ d rest full, ls = (tkhdType, d) :: rest ∧ TrackHeader d t.id ∧ (∀ l ∈ rest, l.1 ≠ tkhdType) ∧ Decoded rest full ∧
      TablesOf full t := by
  obtain ⟨⟨d, rest, e, hh, hn, ⟨o, ho, hoT⟩, ⟨r, hr, hrT⟩, ⟨z, hz, hzs, hzT⟩⟩⟩ := h
  have hrty : r.1 = stscType := by
    have : r ∈ rest.filter (fun l => l.1 == stscType) := by rw [hr]; simp
    simpa using (List.mem_filter.1 this).2
  obtain ⟨lens, hl1, hl2⟩ := movTable_run hrty hrT
  refine ⟨d, rest, ⟨t.chunks.map (·.1), lens, t.chunks.flatMap (·.2)⟩, e, hh, hn, ⟨⟨o, ho, ?_⟩, ⟨r, hr, hl1⟩, ⟨z, hz, ?_⟩⟩,
    rfl, rfl, ?_⟩
  · intro tb htb
    rw [movTable_off hoT, htb]; rfl
  · intro tb htb
    rw [movTable_size hzs hzT, htb]; rfl
  · intro i c hi
    exact hl2 i _ (by simp [hi])

end Rescene
