import Verif.Model.RarSets
import Verif.Props.RarSearch
/-
C88: the blocks of the set of a compressed file, and its packed data.
-/
namespace Rescene.Props
open Rescene Rescene.Spec

/-! ### The name of a set -/

theorem partBase_none (dig : Nat → Bool) : ∀ s : Str, 46 ∉ s → partBase dig s = none := by
  intro s
  induction s with
  | nil => intro _; rfl
  | cons c s ih =>
    intro h
    simp only [List.mem_cons, not_or] at h
    rw [partBase, ih h.2]
    have : isPartTail dig (c :: s) = false := by
      unfold isPartTail
      rw [List.take_succ_cons, List.map_cons]
      have h46 : ((46 : Nat) == if 65 ≤ c ∧ c ≤ 90 then c + 32 else c) = false := by
        rw [beq_eq_false_iff_ne]
        split <;> omega
      have : (str ".part").isPrefixOf ((if 65 ≤ c ∧ c ≤ 90 then c + 32 else c) ::
          (s.take 4).map fun c => if 65 ≤ c ∧ c ≤ 90 then c + 32 else c) = false := by
        show (46 :: str "part").isPrefixOf _ = false
        rw [List.isPrefixOf, h46, Bool.false_and]
      rw [this, Bool.false_and]
    rw [this]
    cases (decide (c = 10)) <;> simp

/-- C88: the volumes `base.part01.rar`, `base.part02.rar`, … are the set `base`, whatever the
number and the extension of three letters. -/
theorem set_of_parts (dig : Nat → Bool) (base num ext : Str) (hb : 10 ∉ base) (hd : ∀ c ∈ num, dig c = true) (h46 : dig 46 = false)
    (he : ext.length = 4) : getSet dig (base ++ str ".part" ++ num ++ ext) = base := by
  have key : ∀ base : Str, 10 ∉ base → partBase dig (base ++ (str ".part" ++ num)) = some base := by
    intro base
    induction base with
    | nil =>
      intro _
      show partBase dig (46 :: (str "part" ++ num)) = _
      rw [partBase, partBase_none]
      · have : isPartTail dig (46 :: (str "part" ++ num)) = true := by
          have hn : num.all dig = true := List.all_eq_true.mpr hd
          show (_ && (num.all dig || _)) = true
          rw [hn, Bool.true_or, Bool.and_true]
          rfl
        rw [this]
        rfl
      · rw [List.mem_append, not_or]
        refine ⟨by decide, ?_⟩
        intro h
        rw [hd 46 h] at h46
        cases h46
    | cons c base ih =>
      intro h
      simp only [List.mem_cons, not_or] at h
      rw [List.cons_append, partBase, if_neg (fun hc => h.1 hc.symm), ih h.2]
  unfold getSet
  have ht : (base ++ str ".part" ++ num ++ ext).take ((base ++ str ".part" ++ num ++ ext).length - 4)
      = base ++ (str ".part" ++ num) := by
    rw [List.append_assoc base, List.length_append (bs := ext), he, Nat.add_sub_cancel, List.take_left']
    simp
  rw [ht]
  dsimp only
  rw [key base hb]

/-- C88: the volumes `base.rar`, `base.r00`, … are the set `base` too. -/
theorem set_of_old (dig : Nat → Bool) (base ext : Str) (hb : partBase dig base = none) (he : ext.length = 4) :
    getSet dig (base ++ ext) = base := by
  unfold getSet
  rw [List.length_append, he, Nat.add_sub_cancel, List.take_left' rfl]
  dsimp only
  rw [hb]

/-! ### The blocks of a set -/

/-- The file blocks among blocks. -/
def filesOf : List SetBlock → List PackedPart
  | [] => []
  | .file p :: l => p :: filesOf l
  | _ :: l => filesOf l

/-- All volumes that begin here are of this set. -/
def OfSet (dig : Nat → Bool) (s : Str) (l : List SetBlock) : Prop := ∀ n, .volume n ∈ l → getSet dig n = s

/-- The set of the last volume. -/
def lastSet (dig : Nat → Bool) : Str → List SetBlock → Str
  | s, [] => s
  | _, .volume n :: l => lastSet dig (getSet dig n) l
  | s, _ :: l => lastSet dig s l

theorem setLoop_before (dig : Nat → Bool) (cur : Nat) : ∀ (pre rest : List SetBlock) (k : Nat) (res : List PackedPart) (s : Str),
    k + pre.length ≤ cur →
    ∃ res', setLoop dig cur k (pre ++ rest) res s [] = setLoop dig cur (k + pre.length) rest res' (lastSet dig s pre) [] := by
  intro pre
  induction pre with
  | nil => intro rest k res s _; exact ⟨res, rfl⟩
  | cons b pre ih =>
    intro rest k res s hk
    rw [List.length_cons] at hk
    have hne : ¬ k = cur := by omega
    have hlen : k + (b :: pre).length = k + 1 + pre.length := by rw [List.length_cons]; omega
    rw [List.cons_append, hlen]
    cases b <;> rw [setLoop] <;> (try simp only [if_neg hne])
    case other => exact ih rest (k + 1) res s (by omega)
    case file p => exact ih rest (k + 1) (res ++ [p]) s (by omega)
    case volume n =>
      by_cases hs : getSet dig n = s
      · rw [if_neg (by simpa using hs)]
        rw [lastSet, hs]
        exact ih rest (k + 1) res s (by omega)
      · rw [if_pos hs, if_pos trivial, lastSet]
        exact ih rest (k + 1) [] (getSet dig n) (by omega)

theorem setLoop_within (dig : Nat → Bool) (cur : Nat) : ∀ (g rest : List SetBlock) (k : Nat) (res : List PackedPart) (s sc : Str),
    OfSet dig s g →
    setLoop dig cur k (g ++ rest) res s sc =
      setLoop dig cur (k + g.length) rest (res ++ filesOf g) s (if k ≤ cur ∧ cur < k + g.length then s else sc) := by
  intro g
  induction g with
  | nil =>
    intro rest k res s sc _
    rw [List.nil_append, filesOf, List.append_nil, List.length_nil, if_neg (by omega)]
    rfl
  | cons b g ih =>
    intro rest k res s sc h
    have hlen : k + (b :: g).length = k + 1 + g.length := by rw [List.length_cons]; omega
    have hg : OfSet dig s g := fun n hn => h n (by simp [hn])
    rw [List.cons_append, hlen]
    have hc : (if k + 1 ≤ cur ∧ cur < k + 1 + g.length then s else if k = cur then s else sc) =
        (if k ≤ cur ∧ cur < k + 1 + g.length then s else sc) := by
      split
      · rw [if_pos (by omega)]
      · split
        · rw [if_pos (by omega)]
        · rw [if_neg (by omega)]
    cases b with
    | other => rw [setLoop, ih rest (k + 1) res s _ hg, hc]; rfl
    | file p =>
      rw [setLoop, ih rest (k + 1) (res ++ [p]) s _ hg, hc, List.append_assoc]; rfl
    | volume n =>
      rw [setLoop, if_neg (by simpa using h n (by simp)), ih rest (k + 1) res s _ hg, hc]; rfl

/-- C88: the blocks of the set of a file are the file blocks of the volumes of that set that follow
each other, all of them and no others, in order.  `g` are the blocks of the set, beginning with
its first volume. -/
theorem set_blocks (dig : Nat → Bool) (pre g post : List SetBlock) (n : Str) (s : Str) (i : Nat)
    (hs : s ≠ []) (hg : OfSet dig s (.volume n :: g)) (hi : i < g.length)
    (hpre : lastSet dig [] pre ≠ s)
    (hpost : ∀ m t, post = .volume m :: t → getSet dig m ≠ s) (hpost' : post = [] ∨ ∃ m t, post = .volume m :: t) :
    setBlocks dig (pre ++ (.volume n :: g ++ post)) (pre.length + 1 + i) = filesOf g := by
  unfold setBlocks
  obtain ⟨res, hres⟩ := setLoop_before dig (pre.length + 1 + i) pre (.volume n :: g ++ post) 0 [] [] (by omega)
  rw [hres, List.cons_append, setLoop]
  have hn : getSet dig n = s := hg n (by simp)
  simp only [if_neg (show ¬ 0 + pre.length = pre.length + 1 + i by omega)]
  rw [hn, if_pos (fun h => hpre h.symm), if_pos trivial, setLoop_within dig _ g post _ [] s [] (fun m hm => hg m (by simp [hm])),
    if_pos (by omega), List.nil_append]
  rcases hpost' with rfl | ⟨m, t, rfl⟩
  · rfl
  · rw [setLoop]
    simp only [if_neg (show ¬ 0 + pre.length + 1 + g.length = pre.length + 1 + i by omega)]
    rw [if_pos (hpost m t rfl), if_neg hs]

/-! ### How the data is prepared -/

/-- C88: in a set that is not solid, every file gets an archive of its own, and the block behind it
can be added. -/
theorem plain_plan (known : Str → Bool) (blocks : List PackedPart) (h : ∀ p ∈ blocks, p.flags &&& 0x10 = 0) (i : Nat) (b : PackedPart)
    (hb : blocks[i]? = some b) : factoryPlan known i b blocks = .ok (.alone blocks[i + 1]?) := by
  have hbf : decide (b.flags &&& 0x10 ≠ 0) = false := by simpa using h b (List.mem_of_getElem? hb)
  have hf : followedBySolid i blocks = none := by
    unfold followedBySolid
    split
    · rename_i p hp
      rw [if_neg (by simpa using h p (List.mem_of_getElem? hp))]
    · rfl
  unfold factoryPlan
  rw [hf, hbf]
  rfl

/-- C88, as far as it holds: in a solid set whose first file is in one piece, the first file begins
a solid archive together with the file behind it, and every other one is added to it.  When the
first file goes on in another volume, this fails: `solid_split_missed`. -/
theorem solid_plan_partial (known : Str → Bool) (first second : PackedPart) (rest : List PackedPart)
    (h0 : first.flags &&& 0x10 = 0) (h : ∀ p ∈ second :: rest, p.flags &&& 0x10 ≠ 0) (hk : known first.name = true) :
    factoryPlan known 0 first (first :: second :: rest) = .ok (.solidFirst second) ∧
    ∀ i b, (first :: second :: rest)[i + 1]? = some b →
      factoryPlan known (i + 1) b (first :: second :: rest) = .ok (.solidMore (first :: second :: rest)[i + 2]?) := by
  constructor
  · have h1 : followedBySolid 0 (first :: second :: rest) = some second := by
      unfold followedBySolid
      simp [h second (by simp)]
    unfold factoryPlan
    rw [h1, show decide (first.flags &&& 0x10 ≠ 0) = false by simpa using h0]
  · intro i b hb
    have hbm : b ∈ second :: rest := by
      rw [List.getElem?_cons_succ] at hb
      exact List.mem_of_getElem? hb
    have h1 : followedBySolid (i + 1) (first :: second :: rest) = (first :: second :: rest)[i + 2]? := by
      unfold followedBySolid
      cases hx : (first :: second :: rest)[i + 1 + 1]? with
      | none => rfl
      | some p =>
        dsimp only
        rw [if_pos]
        rw [List.getElem?_cons_succ] at hx
        exact h p (List.mem_of_getElem? hx)
    unfold factoryPlan
    rw [h1, show decide (b.flags &&& 0x10 ≠ 0) = true by simpa using h b hbm]
    cases (first :: second :: rest)[i + 2]? <;> simp [hk]

theorem recompress_spec (w : RarWorld) (v : RarVersion) (b : PackedPart) : ∀ (fuel : Nat) (a a' : RarArgs) (d d' : Bytes),
    recompress w v b fuel a d = .ok (a', d') →
    (∃ c, a' = { a with threads := c }) ∧ (a' = a ∧ d' = d ∨ ∃ r, w.full v (a'.arglist v) = .ok r ∧ d' = r.packed) := by
  intro fuel
  induction fuel with
  | zero => intro _ _ _ _ h; cases h
  | succ fuel ih =>
    intro a a' d d' h
    have hself : ({ a with threads := a.threads } : RarArgs) = a := by cases a; rfl
    rw [recompress] at h
    split at h
    · cases h; exact ⟨⟨a.threads, hself.symm⟩, .inl ⟨rfl, rfl⟩⟩
    · split at h
      · split at h
        · cases h; exact ⟨⟨a.threads, hself.symm⟩, .inl ⟨rfl, rfl⟩⟩
        · split at h
          · cases h
          · rename_i r hr
            obtain ⟨⟨c, h1⟩, h2⟩ := ih _ _ _ _ h
            refine ⟨⟨c, h1⟩, .inr ?_⟩
            rcases h2 with ⟨e1, e2⟩ | h2
            · rw [e1, e2]; exact ⟨r, hr, rfl⟩
            · exact h2
      · cases h; exact ⟨⟨a.threads, hself.symm⟩, .inl ⟨rfl, rfl⟩⟩

/-- C88: the packed data of one more file of a solid archive comes from an archive of all the files
before it and this one, and has the size of its block. -/
theorem set_new_size (w : RarWorld) (v : RarVersion) (a a' : RarArgs) (srcName : Str) (b : PackedPart) (followup : Option Str)
    (d : Bytes) (h : setNew w v a srcName b followup = .ok (a', d)) :
    d.length = b.psize ∧ a'.store = a.store ++ srcName :: followup.toList ∧ a'.solid = decide (b.flags &&& 0x10 ≠ 0) ∧
    ∃ r, w.full v (a'.arglist v) = .ok r ∧ r.packed = d := by
  unfold setNew at h
  simp only [bind_eq_ok] at h
  obtain ⟨r, hr, x, hx, h⟩ := h
  split at h
  · cases h
  · rename_i hl
    cases h
    obtain ⟨⟨c, h1⟩, h2⟩ := recompress_spec w v b 40 _ _ _ _ hx
    refine ⟨by simpa using hl, by rw [h1], by rw [h1], ?_⟩
    rcases h2 with ⟨e1, e2⟩ | ⟨r', h3, h4⟩
    · rw [e1, e2]; exact ⟨r, hr, rfl⟩
    · exact ⟨r', h3, h4.symm⟩

theorem recompress_wrong (w : RarWorld) (v : RarVersion) (b : PackedPart) (l : Nat) (hl : l ≠ b.psize)
    (hw : ∀ c, ∃ r, w.full v c = .ok r ∧ r.packed.length = l) : ∀ (fuel : Nat) (a : RarArgs) (d : Bytes), d.length = l →
    (∀ c, a.threads = some c → 0 ≤ c ∧ 1 ≤ fuel ∧ 33 ≤ c + fuel) → (a.threads = none → 34 ≤ fuel) →
    ∃ a' d', recompress w v b fuel a d = .ok (a', d') ∧ d'.length = l := by
  intro fuel
  induction fuel with
  | zero =>
    intro a d _ h1 h2
    cases ht : a.threads with
    | none => exact absurd (h2 ht) (by omega)
    | some c => exact absurd (h1 c ht) (by omega)
  | succ fuel ih =>
    intro a d hd h1 h2
    rw [recompress, if_neg (by omega)]
    by_cases hv : v.setsThreads
    · rw [if_pos hv]
      cases hi : increaseThreads w.settings v.major v.minor a.threads with
      | none => exact ⟨a, d, rfl, hd⟩
      | some x =>
        obtain ⟨b1, b2, b3⟩ := increase_bounds _ _ _ _ _ hi
        have hx : 0 ≤ x := by
          rcases b1 with h | ⟨c, hc, hlt⟩
          · exact h
          · have := h1 c hc; omega
        obtain ⟨r, hr, hrl⟩ := hw ({ a with threads := some x }.arglist v)
        dsimp only
        rw [hr]
        refine ih { a with threads := some x } r.packed hrl ?_ (by intro h; cases h)
        intro c hc
        cases hc
        cases ht : a.threads with
        | none => have := h2 ht; omega
        | some c' => have := h1 c' ht; have := b3 c' ht; omega
    · rw [if_neg hv]; exact ⟨a, d, rfl, hd⟩

/-- C88: a file of a solid archive that is split over volumes, apart from the first file, is never
rebuilt, even when `rar` makes exactly the right data: its size is compared with the size of the
first part (main.py:2502 and 2510). -/
theorem solid_split_fails (w : RarWorld) (v : RarVersion) (a : RarArgs) (srcName : Str) (b : PackedPart)
    (blocks : List PackedPart) (followup : Option Str) (hsplit : fullSize b blocks ≠ b.psize)
    (hw : ∀ c, ∃ r, w.full v c = .ok r ∧ r.packed.length = fullSize b blocks)
    (ha : ∀ c, a.threads = some c → 0 ≤ c) : setNew w v a srcName b followup = .error .valueError := by
  unfold setNew
  obtain ⟨r, hr, hrl⟩ := hw ({ a with store := a.store ++ srcName :: followup.toList, solid := b.flags &&& 0x10 ≠ 0 }.arglist v)
  simp only [hr, ok_bind]
  obtain ⟨a', d', h1, h2⟩ := recompress_wrong w v b _ hsplit hw 40
    { a with store := a.store ++ srcName :: followup.toList, solid := b.flags &&& 0x10 ≠ 0 } r.packed hrl
    (fun c hc => ⟨ha c hc, by omega, by have := ha c hc; omega⟩) (by intro _; omega)
  rw [h1, ok_bind, if_pos (by show d'.length ≠ b.psize; rw [h2]; exact hsplit)]

/-- C88: what the second method gives has the full size and comes from an archive of all files. -/
theorem second_method_size (s : MtSettings) (v : RarVersion) (get : RarArgs → Res Bytes) (size : Nat) :
    ∀ (fuel : Nat) (a a' : RarArgs) (d : Bytes), secondMethod s v get size fuel a = .ok (a', d) →
      d.length = size ∧ get a' = .ok d ∧ ∃ c, a' = { a with threads := c } := by
  intro fuel
  induction fuel with
  | zero => intro _ _ _ h; cases h
  | succ fuel ih =>
    intro a a' d h
    rw [secondMethod] at h
    split at h
    · cases h
    · rename_i hg
      split at h
      · split at h
        · split at h
          · cases h
          · obtain ⟨h1, h2, c, h3⟩ := ih _ _ _ h
            exact ⟨h1, h2, c, h3⟩
        · cases h
      · rename_i hl
        cases h
        exact ⟨by simpa using Eq.symm (by simpa using hl), hg, a.threads, by cases a; rfl⟩

theorem second_method_list (s : MtSettings) (v : RarVersion) (hv : v.setsThreads = true) (get : RarArgs → Res Bytes) (size : Nat)
    (hget : ∀ a, ∃ d, get a = .ok d) : ∀ (fuel : Nat) (a : RarArgs) (l : List Int),
    threadsTried s v.major v.minor fuel a.threads = .ok l →
    (∃ x, secondMethod s v get size fuel a = .ok x) ∨
    (secondMethod s v get size fuel a = .error .other ∧ (∀ d, get a = .ok d → d.length ≠ size) ∧
      ∀ c ∈ l, ∀ d, get { a with threads := some c } = .ok d → d.length ≠ size) := by
  intro fuel
  induction fuel with
  | zero => intro _ _ h; cases h
  | succ fuel ih =>
    intro a l h
    rw [threadsTried] at h
    rw [secondMethod]
    obtain ⟨d, hd⟩ := hget a
    rw [hd]
    dsimp only
    by_cases hs : size = d.length
    · rw [if_neg (by simpa using hs)]; exact .inl ⟨_, rfl⟩
    · rw [if_pos hs, if_pos hv]
      have hd0 : ∀ d', (.ok d : Res Bytes) = .ok d' → d'.length ≠ size := by
        intro d' h'; cases h'; exact fun e => hs e.symm
      cases hi : increaseThreads s v.major v.minor a.threads with
      | none =>
        rw [hi] at h
        cases h
        exact .inr ⟨rfl, hd0, by intro c hc; cases hc⟩
      | some x =>
        rw [hi] at h
        simp only [bind_eq_ok] at h
        obtain ⟨r, hr, h⟩ := h
        cases h
        rcases ih { a with threads := some x } r hr with h1 | ⟨h1, h2, h3⟩
        · exact .inl h1
        · refine .inr ⟨h1, hd0, ?_⟩
          intro c hc
          rcases List.mem_cons.mp hc with rfl | hc
          · exact h2
          · exact h3 c hc

/-- C88: the second method gives up only when the archive of all files has the right size with none
of the numbers of threads that are left. -/
theorem second_method_exhaustive (s : MtSettings) (hs : s.mtSet = []) (v : RarVersion) (hv : v.setsThreads = true)
    (get : RarArgs → Res Bytes) (size : Nat) (hget : ∀ a, ∃ d, get a = .ok d) (a : RarArgs) (n : Int)
    (ht : a.threads = some n) (h0 : 0 ≤ n) (h32 : n ≤ 32) :
    (∃ x, secondMethod s v get size 40 a = .ok x) ∨
    (secondMethod s v get size 40 a = .error .other ∧
      ∀ c : Int, n ≤ c → c ≤ highest s v.major v.minor → ∀ d, get { a with threads := some c } = .ok d → d.length ≠ size) := by
  obtain ⟨l, hl⟩ := tried_exists s v.major v.minor 40 a.threads (by intro c hc; rw [ht] at hc; cases hc; omega)
    (by intro h; rw [ht] at h; cases h)
  rcases second_method_list s v hv get size hget 40 a l hl with h | ⟨h1, h2, h3⟩
  · exact .inl h
  · refine .inr ⟨h1, ?_⟩
    intro c hc hhi
    by_cases he : n = c
    · subst he
      intro d hd
      refine h2 d ?_
      rw [← hd]
      congr 1
      cases a
      cases ht
      rfl
    · refine h3 c ?_
      have hh : highest s v.major v.minor ≤ 32 := by
        unfold highest; dsimp only; split <;> (try split) <;> omega
      rw [ht, tried_from s hs v.major v.minor (highest s v.major v.minor - n).toNat n 40 (by omega) (by omega)] at hl
      cases hl
      rw [mem_upFrom]
      omega

example : secondMethod {} exRar420 (fun a => .ok (if a.threads = some 4 then [1, 2, 3] else [1])) 3 40
    ⟨str "-m3", str "-mdA", false, some 1, 0, str "o.rar", [], [], [], [str "a", str "b"]⟩ =
    .ok (⟨str "-m3", str "-mdA", false, some 4, 0, str "o.rar", [], [], [], [str "a", str "b"]⟩, [1, 2, 3]) := by decide +kernel

/-! ### Files of the same name -/

/-- C88, as far as it holds: the first file of a name gets the data that was made for it and it is
remembered for the next ones. -/
theorem data_first_partial {β : Type} (known : List (Str × β)) (name : Str) (o : β) (h : known.lookup name = none) :
    dataObject known name (.ok o) = .ok (o, known ++ [(name, o)]) := by
  unfold dataObject
  rw [ok_bind, h]
  rfl

/-- C88: a later file of the same name, of another set or of another release, gets the data of the
first one, although its own was made. -/
theorem data_stale {β : Type} (known : List (Str × β)) (name : Str) (o old : β) (h : known.lookup name = none) :
    (do let x ← dataObject known name (.ok old)
        dataObject x.2 name (.ok o)) = .ok (old, known ++ [(name, old)]) := by
  rw [data_first_partial known name old h, ok_bind]
  unfold dataObject
  rw [ok_bind]
  have : (known ++ [(name, old)]).lookup name = some old := by
    rw [List.lookup_append, h]
    simp
  rw [this]
  rfl

/-! ### Examples -/

def exSetDig (c : Nat) : Bool := 48 ≤ c && c ≤ 57

def exA1 : PackedPart := ⟨str "a.idx", 0x8002, 0x33, 1, 10, 60⟩
def exA2 : PackedPart := ⟨str "a.idx", 0x8001, 0x33, 2, 5, 60⟩
def exB : PackedPart := ⟨str "b.sub", 0x8010, 0x33, 3, 7, 20⟩

example : getSet exSetDig (str "x.part01.rar") = str "x" ∧ getSet exSetDig (str "x.r00") = str "x" := by decide
example : getSet exSetDig (str "x" ++ str ".part" ++ str "01" ++ str ".rar") = str "x" :=
  set_of_parts exSetDig (str "x") (str "01") (str ".rar") (by decide) (by decide) (by decide) rfl

example : setBlocks exSetDig ([.other, .volume (str "s.rar"), .file exB] ++
    (.volume (str "v.rar") :: [.file exA1, .volume (str "v.r00"), .file exA2] ++ [.volume (str "w.rar"), .file exB])) (3 + 1 + 0)
    = [exA1, exA2] := by
  refine set_blocks exSetDig _ _ _ (str "v.rar") (str "v") 0 (by decide) ?_ (by decide) (by decide) ?_ (.inr ⟨_, _, rfl⟩)
  · intro n hn
    simp only [List.mem_cons, reduceCtorEq, SetBlock.volume.injEq, List.not_mem_nil, or_false, false_or] at hn
    rcases hn with rfl | rfl <;> decide
  · intro m t h
    cases h
    decide

/-- C88: when volumes of another set are in between, the rest of the set is left out, and with it
the rest of the packed data. -/
theorem set_interleaved :
    setBlocks exSetDig [.volume (str "v.rar"), .file exA1, .volume (str "w.rar"), .file exB, .volume (str "v.r00"), .file exA2] 1 = [exA1] ∧
    fullSize exA1 [exA1] = 10 ∧ fullSize exA1 [exA1, exA2] = 15 := by decide

/-- C88: a solid archive is not noticed when its first file goes on in another volume, and the file
that is added behind it is the file itself. -/
theorem solid_split_missed :
    factoryPlan (fun _ => true) 0 exA1 [exA1, exA2, exB] = .ok (.alone (some exA2)) ∧ exA2.name = exA1.name ∧
    factoryPlan (fun _ => true) 0 exA1 [exA1, exB] = .ok (.solidFirst exB) := by decide

example : factoryPlan (fun _ => true) 1 exB [exA1, exB] = .ok (.solidMore none) := by decide

/-- C88: without the first file of a solid set among the known ones, as when it is stored without
compression or a directory, the next files end with an error. -/
theorem solid_unknown_first (first second : PackedPart) (rest : List PackedPart) (known : Str → Bool)
    (h : second.flags &&& 0x10 ≠ 0) (hk : known first.name = false) :
    factoryPlan known 1 second (first :: second :: rest) = .error .keyError := by
  unfold factoryPlan
  rw [show decide (second.flags &&& 0x10 ≠ 0) = true by simpa using h]
  cases followedBySolid 1 (first :: second :: rest) <;> simp [hk]

example : setNew (exWorld exRar300 []) exRar300 ⟨str "-m3", str "-mdA", false, none, 0, str "o.rar", [], [str "a.idx"], [], []⟩
    (str "b.sub") { exB with psize := 3 } none =
    .ok (⟨str "-m3", str "-mdA", true, none, 0, str "o.rar", [], [str "a.idx", str "b.sub"], [], []⟩, [1, 2, 3]) := by decide +kernel

end Rescene.Props
