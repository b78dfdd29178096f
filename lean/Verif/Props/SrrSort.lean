import Verif.Spec.SrrSort
import Verif.Lemmas.Release
import Verif.Props.Edit
/-
C93: srr_sort.py lists and moves the SRR files that have what was asked for.
-/
namespace Rescene.Props
open Rescene Rescene.Spec

theorem scanLoop_all {mode : Mode} {data : Bytes} {fuel : Nat} : ∀ {st : RState} {t : List (Block × Nat)},
    readLoop mode data fuel st = .ok t → scanLoop mode data fuel st = (t.map (·.1), none) := by
  induction fuel with
  | zero => intro st t h; cases h
  | succ fuel ih =>
    intro st t h
    unfold readLoop at h
    obtain ⟨r, hr, h⟩ := bind_eq_ok.1 h
    unfold scanLoop
    rw [hr]
    cases r with
    | none => cases h; rfl
    | some x =>
      obtain ⟨rest, h1, h2⟩ := bind_eq_ok.1 h
      cases h2
      dsimp only
      rw [ih h1]
      rfl

/-- A file that can be read is read to the end. -/
theorem scanFile_all {data : Bytes} {bs : List Block} (h : readAll data = .ok bs) : scanFile data = (bs, none) := by
  unfold readAll readTrace at h
  obtain ⟨t, h1, h2⟩ := bind_eq_ok.1 h
  obtain ⟨mode, h3, h4⟩ := bind_eq_ok.1 h1
  cases h2
  unfold scanFile
  rw [h3]
  exact scanLoop_all h4

theorem seek_any {f : Block → Res (Option Bool)} {last v : Bool} {P : Block → Bool} {bs : List Block}
    (h : ∀ b ∈ bs, f b = .ok (if P b = true then some v else none)) :
    seekBlock f last (bs, none) = .ok (if bs.any P = true then v else last) := by
  induction bs with
  | nil => simp [seekBlock]
  | cons b t ih =>
    unfold seekBlock
    rw [h b (by simp)]
    by_cases hp : P b = true
    · simp [hp]
    · simp only [hp, Bool.false_eq_true, if_false, List.any_cons, Bool.false_or]
      exact ih fun c hc => h c (by simp [hc])

theorem ok_true {a : Bool} : (Except.ok a : Res Bool) = .ok true ↔ a = true := by simp

/-- A search for stored files. -/
theorem seek_stored {bs : List Block} (hu : Usable bs) (g : Str → Bool) (v last : Bool) :
    ∃ r, seekBlock (fun b => if b.btype = 0x6A then do
        let n ← nameOf b
        return if g n = true then some v else none
      else .ok none) last (bs, none) = .ok r ∧ ((∃ n, HasStored bs n ∧ g n = true) → r = v) ∧ ((∀ n, HasStored bs n → g n = false) → r = last) := by
  have hany := seek_any (f := fun b => if b.btype = 0x6A then do
        let n ← nameOf b
        return if g n = true then some v else none
      else .ok none) (last := last) (v := v) (P := fun b => decide (b.btype = 0x6A) && (match b.kind with | .stored _ n => g n | _ => false)) (bs := bs) (by
    intro b hb
    by_cases ht : b.btype = 0x6A
    · obtain ⟨s, n, hk⟩ := (hu b hb).1 ht
      simp only [ht, if_true, nameOf, hk, ok_bind, decide_true, Bool.true_and]
      rfl
    · simp [ht])
  refine ⟨_, hany, ?_, ?_⟩
  · rintro ⟨n, ⟨b, hb, ht, s, hk⟩, hg⟩
    rw [if_pos]
    rw [List.any_eq_true]
    exact ⟨b, hb, by simp [ht, hk, hg]⟩
  · intro hall
    rw [if_neg]
    rw [List.any_eq_true]
    rintro ⟨b, hb, hp⟩
    simp only [Bool.and_eq_true, decide_eq_true_eq] at hp
    obtain ⟨ht, hp⟩ := hp
    obtain ⟨s, n, hk⟩ := (hu b hb).1 ht
    rw [hk] at hp
    simp only [hall n ⟨b, hb, ht, s, hk⟩] at hp
    cases hp

/-- A search for volumes. -/
theorem seek_volume {bs : List Block} (hu : Usable bs) (g : Str → Bool) (v last : Bool) :
    ∃ r, seekBlock (fun b => if b.btype = 0x71 then do
        let n ← nameOf b
        return if g n = true then some v else none
      else .ok none) last (bs, none) = .ok r ∧ ((∃ n, HasVolume bs n ∧ g n = true) → r = v) ∧ ((∀ n, HasVolume bs n → g n = false) → r = last) := by
  have hany := seek_any (f := fun b => if b.btype = 0x71 then do
        let n ← nameOf b
        return if g n = true then some v else none
      else .ok none) (last := last) (v := v) (P := fun b => decide (b.btype = 0x71) && (match b.kind with | .rarFile n => g n | _ => false)) (bs := bs) (by
    intro b hb
    by_cases ht : b.btype = 0x71
    · obtain ⟨n, hk⟩ := (hu b hb).2.1 ht
      simp only [ht, if_true, nameOf, hk, ok_bind, decide_true, Bool.true_and]
      rfl
    · simp [ht])
  refine ⟨_, hany, ?_, ?_⟩
  · rintro ⟨n, ⟨b, hb, ht, hk⟩, hg⟩
    rw [if_pos]
    rw [List.any_eq_true]
    exact ⟨b, hb, by simp [ht, hk, hg]⟩
  · intro hall
    rw [if_neg]
    rw [List.any_eq_true]
    rintro ⟨b, hb, hp⟩
    simp only [Bool.and_eq_true, decide_eq_true_eq] at hp
    obtain ⟨ht, hp⟩ := hp
    obtain ⟨n, hk⟩ := (hu b hb).2.1 ht
    rw [hk] at hp
    simp only [hall n ⟨b, hb, ht, hk⟩] at hp
    cases hp

/-- A yes or no that is given when one thing holds and not when it does not. -/
theorem iff_of_cases {r : Bool} {P : Prop} (h1 : P → r = true) (h2 : ¬ P → r = false) : r = true ↔ P := by
  constructor
  · intro h
    by_cases hp : P
    · exact hp
    · rw [h2 hp] at h; cases h
  · exact h1

theorem compression_iff {data : Bytes} {bs : List Block} (h : readAll data = .ok bs) (hu : Usable bs) :
    ∃ r, checkCompression data = .ok r ∧ (r = true ↔ ∃ f, HasFile bs f ∧ f.method ≠ 0x30) := by
  unfold checkCompression
  rw [scanFile_all h]
  refine ⟨_, seek_any (v := true) (P := fun b => decide (b.btype = 0x74) && (match b.kind with | .packed f => decide (f.method ≠ 0x30) | _ => false)) ?_, ?_⟩
  · intro b hb
    by_cases ht : b.btype = 0x74
    · obtain ⟨f, hk⟩ := (hu b hb).2.2 ht
      simp [ht, hk]
    · simp [ht]
  · rw [Bool.if_true_left, Bool.or_false, decide_eq_true_eq, List.any_eq_true]
    constructor
    · rintro ⟨b, hb, hp⟩
      simp only [Bool.and_eq_true, decide_eq_true_eq] at hp
      obtain ⟨ht, hp⟩ := hp
      obtain ⟨f, hk⟩ := (hu b hb).2.2 ht
      rw [hk] at hp
      exact ⟨f, ⟨b, hb, ht, hk⟩, by simpa using hp⟩
    · rintro ⟨f, ⟨b, hb, ht, hk⟩, hm⟩
      exact ⟨b, hb, by simp [ht, hk, hm]⟩

theorem empty_iff {data : Bytes} {bs : List Block} (h : readAll data = .ok bs) (hu : Usable bs) :
    ∃ r, checkEmpty data = .ok r ∧ (r = true ↔ ∀ f, ¬ HasFile bs f) := by
  unfold checkEmpty
  rw [scanFile_all h]
  refine ⟨_, seek_any (v := false) (P := fun b => decide (b.btype = 0x74)) ?_, ?_⟩
  · intro b hb
    by_cases ht : b.btype = 0x74 <;> simp [ht]
  · constructor
    · intro hr f hf
      obtain ⟨b, hb, ht, _⟩ := hf
      rw [if_pos (List.any_eq_true.2 ⟨b, hb, by simp [ht]⟩)] at hr
      cases hr
    · intro hno
      rw [if_neg]
      rw [List.any_eq_true]
      rintro ⟨b, hb, ht⟩
      have ht : b.btype = 0x74 := by simpa using ht
      obtain ⟨f, hk⟩ := (hu b hb).2.2 ht
      exact hno f ⟨b, hb, ht, hk⟩

theorem nostored_iff {data : Bytes} {bs : List Block} (h : readAll data = .ok bs) (hu : Usable bs) :
    ∃ r, checkNoStored data = .ok r ∧ (r = true ↔ ∀ n, ¬ HasStored bs n) := by
  unfold checkNoStored
  rw [scanFile_all h]
  refine ⟨_, seek_any (v := false) (P := fun b => decide (b.btype = 0x6A)) ?_, ?_⟩
  · intro b hb
    by_cases ht : b.btype = 0x6A <;> simp [ht]
  · constructor
    · intro hr n hf
      obtain ⟨b, hb, ht, _⟩ := hf
      rw [if_pos (List.any_eq_true.2 ⟨b, hb, by simp [ht]⟩)] at hr
      cases hr
    · intro hno
      rw [if_neg]
      rw [List.any_eq_true]
      rintro ⟨b, hb, ht⟩
      have ht : b.btype = 0x6A := by simpa using ht
      obtain ⟨s, n, hk⟩ := (hu b hb).1 ht
      exact hno n ⟨b, hb, ht, s, hk⟩

theorem repack_iff {data : Bytes} {bs : List Block} (h : readAll data = .ok bs) (hu : Usable bs) :
    ∃ r, checkRepack data = .ok r ∧ (r = true ↔ ∃ n, HasVolume bs n ∧ ∃ k ∈ ["rpk", "repack", "-r.part01.rar", "-r.rar"], str k <:+: n) := by
  unfold checkRepack
  rw [scanFile_all h]
  obtain ⟨r, h1, h2, h3⟩ := seek_volume hu (fun n => [str "rpk", str "repack", str "-r.part01.rar", str "-r.rar"].any fun k => isIn k n) true false
  have key : ∀ n, ([str "rpk", str "repack", str "-r.part01.rar", str "-r.rar"].any fun k => isIn k n) = true ↔
      ∃ k ∈ ["rpk", "repack", "-r.part01.rar", "-r.rar"], str k <:+: n := by
    intro n
    simp [isIn_iff]
  refine ⟨r, h1, iff_of_cases ?_ ?_⟩
  · rintro ⟨n, hn, hk⟩
    exact h2 ⟨n, hn, (key n).2 hk⟩
  · intro hno
    refine h3 fun n hn => ?_
    rw [Bool.eq_false_iff]
    intro hk
    exact hno ⟨n, hn, (key n).1 hk⟩

theorem nonscene_iff {lower : Str → Str} {data : Bytes} {bs : List Block} (h : readAll data = .ok bs) (hu : Usable bs) :
    ∃ r, checkNonscene lower data = .ok r ∧ (r = true ↔ ∃ n, HasVolume bs n ∧ n ≠ lower n) := by
  obtain ⟨r, h1, h2, h3⟩ := seek_volume hu (fun n => decide (n ≠ lower n)) true false
  refine ⟨r, ?_, iff_of_cases ?_ ?_⟩
  · unfold checkNonscene
    rw [scanFile_all h, ← h1]
    simp only [decide_eq_true_eq]
  · rintro ⟨n, hn, hk⟩
    exact h2 ⟨n, hn, by simpa using hk⟩
  · intro hno
    refine h3 fun n hn => ?_
    rw [Bool.eq_false_iff]
    intro hk
    exact hno ⟨n, hn, by simpa using hk⟩

theorem ext_iff {lower : Str → Str} {data : Bytes} {bs : List Block} (h : readAll data = .ok bs) (hu : Usable bs) (ext : Str) (found : Bool) :
    ∃ r, checkExt lower ext found data = .ok r ∧ (r = found ↔ ∃ n, HasStored bs n ∧ ext <:+ lower n) := by
  obtain ⟨r, h1, h2, h3⟩ := seek_stored hu (fun n => endsWith (lower n) ext) found (!found)
  have key : ∀ n, endsWith (lower n) ext = true ↔ ext <:+ lower n := by
    intro n
    unfold endsWith
    exact List.isSuffixOf_iff_suffix
  refine ⟨r, ?_, ?_⟩
  · unfold checkExt
    rw [scanFile_all h, ← h1]
  · constructor
    · intro hr
      apply Classical.byContradiction
      intro hno
      have := h3 fun n hn => by
        rw [Bool.eq_false_iff]
        intro hk
        exact hno ⟨n, hn, (key n).1 hk⟩
      rw [hr] at this
      cases found <;> cases this
    · rintro ⟨n, hn, hk⟩
      exact h2 ⟨n, hn, (key n).2 hk⟩

theorem duplicates_iff {data : Bytes} {bs : List Block} (h : readAll data = .ok bs) (hu : Usable bs) :
    ∃ r, checkDuplicates data = .ok r ∧ (r = true ↔ ∃ n l1 l2 l3, storedNames bs = l1 ++ n :: l2 ++ n :: l3) := by
  have hloop : ∀ (bs : List Block) (found : List Str), Usable bs → found.Nodup →
      ∃ r, dupLoop found (bs, none) = .ok r ∧ (r = false ↔ (found ++ storedNames bs).Nodup) := by
    intro bs
    induction bs with
    | nil =>
      intro found _ hn
      exact ⟨false, by unfold dupLoop; rfl, by simp [storedNames, hn]⟩
    | cons b t ih =>
      intro found hu hn
      have hut : Usable t := fun c hc => hu c (by simp [hc])
      unfold dupLoop
      by_cases ht : b.btype = 0x6A
      · obtain ⟨s, n, hk⟩ := (hu b (by simp)).1 ht
        have hs : storedNames (b :: t) = n :: storedNames t := by simp [storedNames, hk, ht]
        simp only [ht, if_true, nameOf, hk]
        by_cases hc : found.contains n = true
        · rw [if_pos hc]
          refine ⟨true, rfl, ?_⟩
          rw [hs]
          simp only [Bool.true_eq_false, false_iff]
          intro hnd
          rw [List.nodup_append] at hnd
          exact hnd.2.2 n (List.contains_iff_mem.1 hc) n (by simp) rfl
        · rw [if_neg hc]
          obtain ⟨r, h1, h2⟩ := ih (found ++ [n]) hut (by
            rw [List.nodup_append]
            refine ⟨hn, by simp, ?_⟩
            rintro a ha c hc2 rfl
            rw [List.mem_singleton] at hc2
            subst hc2
            exact hc (List.contains_iff_mem.2 ha))
          refine ⟨r, h1, ?_⟩
          rw [h2, hs]
          simp
      · have hs : storedNames (b :: t) = storedNames t := by
          unfold storedNames
          rw [List.filterMap_cons]
          split
          · rfl
          · rename_i x hx
            split at hx
            · simp [ht] at hx
            · cases hx
        rw [if_neg ht, hs]
        exact ih found hut hn
  obtain ⟨r, h1, h2⟩ := hloop bs [] hu (by simp)
  refine ⟨r, ?_, ?_⟩
  · unfold checkDuplicates
    rw [scanFile_all h]
    exact h1
  · rw [List.nil_append] at h2
    have hdup : ∀ l : List Str, ¬ l.Nodup ↔ ∃ n l1 l2 l3, l = l1 ++ n :: l2 ++ n :: l3 := by
      intro l
      induction l with
      | nil => simp
      | cons a l ih =>
        rw [List.nodup_cons]
        constructor
        · intro hc
          by_cases ha : a ∈ l
          · obtain ⟨s, t, rfl⟩ := List.append_of_mem ha
            exact ⟨a, [], s, t, rfl⟩
          · obtain ⟨n, l1, l2, l3, rfl⟩ := ih.1 fun hn => hc ⟨ha, hn⟩
            exact ⟨n, a :: l1, l2, l3, rfl⟩
        · rintro ⟨n, l1, l2, l3, he⟩ ⟨ha, hn⟩
          cases l1 with
          | nil =>
            simp only [List.nil_append, List.cons_append, List.cons.injEq] at he
            obtain ⟨rfl, rfl⟩ := he
            exact ha (by simp)
          | cons x l1 =>
            simp only [List.cons_append, List.cons.injEq] at he
            obtain ⟨rfl, rfl⟩ := he
            exact ih.2 ⟨n, l1, l2, l3, by simp⟩ hn
    rw [← hdup]
    cases r with
    | true => simpa using h2
    | false => simpa using h2

theorem ifSet_ok {o : Bool} {c : Res Bool} {P : Prop} (h : ∃ r, c = .ok r ∧ (r = true ↔ P)) :
    ∃ r, ifSet o c = .ok r ∧ (r = true ↔ o = true ∧ P) := by
  obtain ⟨r, h1, h2⟩ := h
  cases o with
  | true => exact ⟨r, h1, by simp [h2]⟩
  | false => exact ⟨false, rfl, by simp⟩

theorem last_part (sep : Nat) (s : Str) : ∃ g, (splitOn sep s).getLast? = some g ∧ sep ∉ g ∧ (s = g ∨ ∃ b, s = b ++ sep :: g) := by
  induction s with
  | nil => exact ⟨[], rfl, by simp, Or.inl rfl⟩
  | cons c s ih =>
    obtain ⟨g, h1, h2, h3⟩ := ih
    unfold splitOn
    by_cases hc : c = sep
    · rw [if_pos hc]
      subst hc
      refine ⟨g, ?_, h2, Or.inr ?_⟩
      · rw [List.getLast?_cons, h1]; rfl
      · rcases h3 with rfl | ⟨b, rfl⟩
        · exact ⟨[], rfl⟩
        · exact ⟨c :: b, rfl⟩
    · rw [if_neg hc]
      cases hs : splitOn sep s with
      | nil => rw [hs] at h1; cases h1
      | cons x l =>
        rw [hs] at h1
        cases l with
        | nil =>
          simp only [List.getLast?_singleton, Option.some.injEq] at h1
          subst h1
          rcases h3 with rfl | ⟨b, rfl⟩
          · refine ⟨c :: s, rfl, ?_, Or.inl rfl⟩
            simp only [List.mem_cons, not_or]
            exact ⟨fun h => hc h.symm, h2⟩
          · exfalso
            have : ∀ b : Str, 2 ≤ (splitOn sep (b ++ sep :: x)).length := by
              intro b
              induction b with
              | nil =>
                simp only [List.nil_append, splitOn, if_true, List.length_cons]
                have : (splitOn sep x) ≠ [] := by
                  cases x with
                  | nil => simp [splitOn]
                  | cons y x =>
                    simp only [splitOn]
                    split
                    · simp
                    · split <;> simp
                have := List.length_pos_iff.2 this
                omega
              | cons y b ihb =>
                simp only [List.cons_append, splitOn]
                split
                · simp only [List.length_cons]; omega
                · split
                  · rename_i hn; rw [hn] at ihb; simp at ihb
                  · rename_i hn; rw [hn] at ihb; simpa using ihb
            have := this b
            rw [hs] at this
            simp at this
        | cons y l =>
          refine ⟨g, ?_, h2, Or.inr ?_⟩
          · rw [List.getLast?_cons_cons] at h1 ⊢
            exact h1
          · rcases h3 with rfl | ⟨b, rfl⟩
            · rw [splitOn_of_not_mem h2] at hs
              cases hs
            · exact ⟨c :: b, rfl⟩

/-- What follows the last separator is unique. -/
theorem last_unique {sep : Nat} {s g g' : Str} (h1 : sep ∉ g) (h1' : sep ∉ g') (h2 : s = g ∨ ∃ b, s = b ++ sep :: g)
    (h2' : s = g' ∨ ∃ b, s = b ++ sep :: g') : g = g' := by
  rcases h2 with rfl | ⟨b, rfl⟩
  · rcases h2' with h | ⟨b', rfl⟩
    · exact h
    · exact absurd (by simp) h1
  · rcases h2' with rfl | ⟨b', h⟩
    · exact absurd (by simp) h1'
    · rcases List.append_eq_append_iff.1 h with ⟨a, ha, hb⟩ | ⟨a, ha, hb⟩
      · cases a with
        | nil => simpa using hb
        | cons x a =>
          simp only [List.cons_append, List.cons.injEq] at hb
          exact absurd (by rw [hb.2]; simp) h1
      · cases a with
        | nil => simpa using hb.symm
        | cons x a =>
          simp only [List.cons_append, List.cons.injEq] at hb
          exact absurd (by rw [hb.2]; simp) h1'

theorem lowerName_iff {lower : Str → Str} {p : Path} : lowerName lower p = true ↔ LowerGroup lower p := by
  obtain ⟨g, h1, h2, h3⟩ := last_part 0x2D (p.take (p.length - 4))
  unfold lowerName LowerGroup
  simp only [h1, Option.getD_some, Bool.or_eq_true, beq_iff_eq, List.contains_iff_mem]
  constructor
  · rintro ((h | h) | h)
    · exact Or.inr ⟨g, h2, h3, Or.inl h.symm⟩
    · exact Or.inr ⟨g, h2, h3, Or.inr h⟩
    · exact Or.inl h.symm
  · rintro (h | ⟨g', h2', h3', h⟩)
    · exact Or.inr h.symm
    · obtain rfl := last_unique h2 h2' h3 h3'
      rcases h with h | h
      · exact Or.inl (Or.inl h.symm)
      · exact Or.inl (Or.inr h)

/-- C93: an SRR file that can be read matches exactly when something that an option asks for is the case. -/
theorem sort_match_partial {lower upper : Str → Str} {o : SortOpts} {p : Path} {data : Bytes} {bs : List Block}
    (h : readAll data = .ok bs) (hu : Usable bs) (hv : o.verify = false ∨ ∃ i, info lower upper data = .ok i)
    (hi : o.image = false) (hp : o.noproof = false) (hn : o.nfos = false) :
    ∃ r, sortMatch lower upper o p data = .ok r ∧ (r = true ↔ Wanted lower o p bs) := by
  obtain ⟨a1, e1, i1⟩ := ifSet_ok (o := o.compressed) (compression_iff h hu)
  obtain ⟨a2, e2, i2⟩ := ifSet_ok (o := o.empty) (empty_iff h hu)
  obtain ⟨a4, e4, i4⟩ := ifSet_ok (o := o.repack) (repack_iff h hu)
  obtain ⟨a6, e6, i6⟩ := ifSet_ok (o := o.duplicates) (duplicates_iff h hu)
  obtain ⟨a7, e7, i7⟩ := ifSet_ok (o := o.peer2peer) (nonscene_iff (lower := lower) h hu)
  obtain ⟨a8, e8, i8⟩ := ifSet_ok (o := o.nofiles) (nostored_iff h hu)
  have hno : ∀ ext, ∃ r, checkExt lower ext false data = .ok r ∧ (r = true ↔ ∀ n, HasStored bs n → ¬ ext <:+ lower n) := by
    intro ext
    obtain ⟨r, h1, h2⟩ := ext_iff (lower := lower) h hu ext false
    refine ⟨r, h1, ?_⟩
    constructor
    · rintro rfl n hn hs
      have := h2.2 ⟨n, hn, hs⟩
      cases this
    · intro hall
      cases r with
      | true => rfl
      | false =>
        obtain ⟨n, hn, hs⟩ := h2.1 rfl
        exact absurd hs (hall n hn)
  obtain ⟨a9, e9, i9⟩ := ifSet_ok (o := o.nosfv) (hno (str ".sfv"))
  obtain ⟨a10, e10, i10⟩ := ifSet_ok (o := o.nonfo) (hno (str ".nfo"))
  obtain ⟨a11, e11, i11⟩ := ifSet_ok (o := o.txt) (ext_iff (lower := lower) h hu (str ".txt") true)
  refine ⟨(o.lowercase && lowerName lower p) || a1 || a2 || a4 || a6 || a7 || a8 || a9 || a10 || a11, ?_, ?_⟩
  · unfold sortMatch
    have hver : (if o.verify then (do let _ ← info lower upper data; return ()) else .ok () : Res Unit) = .ok () := by
      rcases hv with hv | ⟨i, hv⟩
      · simp [hv]
      · rw [hv]
        cases o.verify <;> rfl
    have e3 : ifSet (o.image || o.noproof) (checkImage lower o.noproof data) = .ok false := by simp [hi, hp, ifSet]
    have e5 : ifSet o.nfos (checkNfos lower data) = .ok false := by simp [hn, ifSet]
    rw [hver, e1, e2, e3, e4, e5, e6, e7, e8, e9, e10, e11]
    simp only [ok_bind, Bool.or_false]
    rfl
  · unfold Wanted
    simp only [Bool.or_eq_true, Bool.and_eq_true, lowerName_iff, i1, i2, i4, i6, i7, i8, i9, i10, i11, or_assoc]

theorem image_key (n : Str) : sortImages.contains (Rescene.extOf n) = true ↔ ∃ e ∈ [".jpg", ".png", ".bmp", ".gif"], Rescene.extOf n = str e := by
  have hdot : ∀ n, Rescene.extOf n ≠ str "jpeg" := by
    intro n
    unfold Rescene.extOf
    dsimp only
    split
    · decide
    · split
      · intro hc
        have := (List.cons.inj (hc.trans (by decide : str "jpeg" = [0x6A, 0x70, 0x65, 0x67]))).1
        cases this
      · decide
  rw [List.contains_iff_mem]
  simp [sortImages, hdot]

/-- C93: -i lists an SRR exactly when an image with one of these four extensions, in small letters, is stored. -/
theorem image_iff_partial {lower : Str → Str} {data : Bytes} {bs : List Block} (h : readAll data = .ok bs) (hu : Usable bs) :
    ∃ r, checkImage lower false data = .ok r ∧
      (r = true ↔ ∃ n, HasStored bs n ∧ ∃ e ∈ [".jpg", ".png", ".bmp", ".gif"], Rescene.extOf n = str e) := by
  obtain ⟨r, h1, h2, h3⟩ := seek_stored hu (fun n => sortImages.contains (Rescene.extOf n)) true false
  have key := image_key
  refine ⟨r, ?_, iff_of_cases ?_ ?_⟩
  · unfold checkImage
    rw [scanFile_all h, ← h1]
    simp only [Bool.false_and, Bool.not_false]
  · rintro ⟨n, hn, hk⟩
    exact h2 ⟨n, hn, (key n).2 hk⟩
  · intro hno
    refine h3 fun n hn => ?_
    rw [Bool.eq_false_iff]
    intro hk
    exact hno ⟨n, hn, (key n).1 hk⟩

/-- C93: without proofs, the first stored image decides: the SRR is listed exactly when its name, in small letters, has no `proof` in it. -/
theorem noproof_partial {lower : Str → Str} {data : Bytes} {bs : List Block} (h : readAll data = .ok bs) (hu : Usable bs) :
    ∃ r, checkImage lower true data = .ok r ∧
      (r = true ↔ ∃ l1 n l2, storedNames bs = l1 ++ n :: l2 ∧ (∃ e ∈ [".jpg", ".png", ".bmp", ".gif"], Rescene.extOf n = str e) ∧
        (∀ x ∈ l1, ¬ ∃ e ∈ [".jpg", ".png", ".bmp", ".gif"], Rescene.extOf x = str e) ∧ ¬ str "proof" <:+: lower n) := by
  unfold checkImage
  rw [scanFile_all h]
  clear h
  induction bs with
  | nil => exact ⟨false, by simp [seekBlock], by simp [storedNames]⟩
  | cons b t ih =>
    obtain ⟨r, ih1, ih2⟩ := ih fun c hc => hu c (by simp [hc])
    unfold seekBlock
    by_cases ht : b.btype = 0x6A
    · obtain ⟨size, n, hk⟩ := (hu b (by simp)).1 ht
      have hs : storedNames (b :: t) = n :: storedNames t := by simp [storedNames, hk, ht]
      simp only [ht, if_true, nameOf, hk, ok_bind, pure_eq_ok]
      by_cases hi : sortImages.contains (Rescene.extOf n) = true
      · simp only [hi, if_true, Bool.true_and]
        refine ⟨_, rfl, ?_⟩
        rw [Bool.not_eq_true', ← Bool.not_eq_true, isIn_iff, hs]
        constructor
        · intro hp
          exact ⟨[], n, storedNames t, rfl, (image_key n).1 hi, by simp, hp⟩
        · rintro ⟨l1, m, l2, he, _, h1, h2⟩
          cases l1 with
          | nil =>
            rw [List.nil_append, List.cons.injEq] at he
            rw [he.1]
            exact h2
          | cons x l1 =>
            rw [List.cons_append, List.cons.injEq] at he
            exact absurd ((image_key n).1 hi) (h1 n (by simp [he.1]))
      · simp only [hi, Bool.false_eq_true, if_false]
        refine ⟨r, ih1, ih2.trans ?_⟩
        rw [hs]
        constructor
        · rintro ⟨l1, m, l2, he, h1, h2, h3⟩
          refine ⟨n :: l1, m, l2, by rw [he]; rfl, h1, ?_, h3⟩
          intro x hx
          rcases List.mem_cons.1 hx with rfl | hx
          · exact fun hh => hi ((image_key x).2 hh)
          · exact h2 x hx
        · rintro ⟨l1, m, l2, he, h1, h2, h3⟩
          cases l1 with
          | nil =>
            rw [List.nil_append, List.cons.injEq] at he
            exact absurd ((image_key n).2 (by rw [he.1]; exact h1)) hi
          | cons x l1 =>
            rw [List.cons_append, List.cons.injEq] at he
            exact ⟨l1, m, l2, he.2, h1, fun y hy => h2 y (by simp [hy]), h3⟩
    · have hs : storedNames (b :: t) = storedNames t := by
        unfold storedNames
        rw [List.filterMap_cons]
        split
        · rfl
        · rename_i heq
          split at heq
          · simp [ht] at heq
          · cases heq
      simp only [ht, if_false]
      rw [hs]
      exact ⟨r, ih1, ih2⟩

/-- C93, disagreement: the option for two or more NFO files never lists an SRR: the number is set to zero for each block. -/
theorem nfos_never (lower : Str → Str) (data : Bytes) : checkNfos lower data ≠ .ok true := by
  have h : ∀ (l : List Block) (e : Option Err) (c : Option Nat), (∀ n, c = some n → n ≤ 1) → nfoLoop lower c (l, e) ≠ .ok true := by
    intro l
    induction l with
    | nil =>
      intro e c hc
      cases e with
      | some e => cases c <;> simp [nfoLoop]
      | none =>
        cases c with
        | none => simp [nfoLoop]
        | some n => simp [nfoLoop, hc n rfl]
    | cons b t ih =>
      intro e c hc
      simp only [nfoLoop]
      split
      · split
        · simp
        · exact ih e _ fun n hn => by
            have := Option.some.inj hn
            rw [← this]
            split <;> omega
      · exact ih e _ fun n hn => by
          have := Option.some.inj hn
          omega
  exact h _ _ none fun n hn => by cases hn

/-- The blocks of a file that cannot be read to the end. -/
theorem scanFile_err {data : Bytes} {e : Err} (h : readAll data = .error e) : ∃ bs e', scanFile data = (bs, some e') := by
  have hloop : ∀ (mode : Mode) (fuel : Nat) (st : RState), (∀ t, readLoop mode data fuel st ≠ .ok t) →
      ∃ bs e', scanLoop mode data fuel st = (bs, some e') := by
    intro mode fuel
    induction fuel with
    | zero => intro st _; exact ⟨_, _, rfl⟩
    | succ fuel ih =>
      intro st hno
      unfold readLoop at hno
      unfold scanLoop
      cases hr : readBlock mode data st with
      | error x => exact ⟨_, _, rfl⟩
      | ok r =>
        rw [hr] at hno
        cases r with
        | none => exact absurd rfl (hno _)
        | some x =>
          obtain ⟨bs, e', hb⟩ := ih x.2 (by
            intro t ht
            simp only [ok_bind, ht] at hno
            exact hno _ rfl)
          obtain ⟨b, st'⟩ := x
          exact ⟨_, e', by simp only [hb]; rfl⟩
  unfold readAll readTrace at h
  unfold scanFile
  cases ho : openReader data with
  | error x => exact ⟨_, _, rfl⟩
  | ok mode =>
    refine hloop mode _ _ ?_
    intro t ht
    rw [ho] at h
    simp only [ok_bind, ht] at h
    cases h

theorem seek_err {f : Block → Res (Option Bool)} {last : Bool} {e : Err} (hf : ∀ b, f b ≠ .ok (some true)) (bs : List Block) :
    seekBlock f last (bs, some e) ≠ .ok true := by
  induction bs with
  | nil => simp [seekBlock]
  | cons b t ih =>
    unfold seekBlock
    cases hb : f b with
    | error x => simp
    | ok r =>
      cases r with
      | none => exact ih
      | some v =>
        cases v with
        | true => exact absurd hb (hf b)
        | false => simp

theorem ifSet_err {o : Bool} {c : Res Bool} (h : c ≠ .ok true) : ifSet o c ≠ .ok true := by
  unfold ifSet
  split
  · exact h
  · simp

/-- C93: an SRR that cannot be read to the end is never listed for something that it lacks: archived files, stored files, an SFV or NFO file. -/
theorem sort_damaged {lower upper : Str → Str} {o : SortOpts} {p : Path} {data : Bytes} {e : Err} (h : readAll data = .error e)
    (h0 : o.lowercase = false) (h1 : o.compressed = false) (h2 : o.image = false) (h3 : o.noproof = false) (h4 : o.repack = false)
    (h5 : o.duplicates = false) (h6 : o.peer2peer = false) (h7 : o.txt = false) : sortMatch lower upper o p data ≠ .ok true := by
  obtain ⟨bs, e', hscan⟩ := scanFile_err h
  have he : ifSet o.empty (checkEmpty data) ≠ .ok true := by
    refine ifSet_err ?_
    unfold checkEmpty
    rw [hscan]
    refine seek_err ?_ bs
    intro b
    split <;> simp
  have hf : ifSet o.nofiles (checkNoStored data) ≠ .ok true := by
    refine ifSet_err ?_
    unfold checkNoStored
    rw [hscan]
    refine seek_err ?_ bs
    intro b
    split <;> simp
  have hx : ∀ ext, checkExt lower ext false data ≠ .ok true := by
    intro ext
    unfold checkExt
    rw [hscan]
    refine seek_err ?_ bs
    intro b
    split
    · cases hn : nameOf b with
      | error x => simp
      | ok n =>
        simp only [ok_bind, pure_eq_ok]
        split <;> simp
    · simp
  intro hm
  unfold sortMatch at hm
  obtain ⟨_, _, hm⟩ := bind_eq_ok.1 hm
  obtain ⟨a1, g1, hm⟩ := bind_eq_ok.1 hm
  obtain ⟨a2, g2, hm⟩ := bind_eq_ok.1 hm
  obtain ⟨a3, g3, hm⟩ := bind_eq_ok.1 hm
  obtain ⟨a4, g4, hm⟩ := bind_eq_ok.1 hm
  obtain ⟨a5, g5, hm⟩ := bind_eq_ok.1 hm
  obtain ⟨a6, g6, hm⟩ := bind_eq_ok.1 hm
  obtain ⟨a7, g7, hm⟩ := bind_eq_ok.1 hm
  obtain ⟨a8, g8, hm⟩ := bind_eq_ok.1 hm
  obtain ⟨a9, g9, hm⟩ := bind_eq_ok.1 hm
  obtain ⟨a10, g10, hm⟩ := bind_eq_ok.1 hm
  obtain ⟨a11, g11, hm⟩ := bind_eq_ok.1 hm
  have hfalse : ∀ {c : Res Bool} {a : Bool}, c = .ok a → c ≠ .ok true → a = false := by
    intro c a hc hne
    cases a with
    | false => rfl
    | true => exact absurd hc hne
  have b2 := hfalse g2 he
  have b5 := hfalse g5 (ifSet_err (nfos_never lower data))
  have b8 := hfalse g8 hf
  have b9 := hfalse g9 (ifSet_err (hx _))
  have b10 := hfalse g10 (ifSet_err (hx _))
  rw [h1] at g1
  rw [h2, h3] at g3
  rw [h4] at g4
  rw [h5] at g6
  rw [h6] at g7
  rw [h7] at g11
  cases g1
  cases g3
  cases g4
  cases g6
  cases g7
  cases g11
  subst b2 b5 b8 b9 b10
  rw [h0] at hm
  simp at hm

/-- A damaged SRR: the hypotheses of `sort_damaged`. -/
example : (match readAll [0x69, 0x69, 0x69, 0x00, 0x00, 0x09, 0x00] with | .error _ => true | .ok _ => false) = true ∧
    sortMatch lowerStr id { empty := true, nosfv := true } (str "/a.srr") [0x69, 0x69, 0x69, 0x00, 0x00, 0x09, 0x00] ≠ .ok true := by decide +kernel

/-! ### Moving -/

/-- The SRR file matches, and nothing went wrong while reading it. -/
def Matches (lower upper : Str → Str) (o : SortOpts) (p : Path) (data : Bytes) : Prop := sortMatch lower upper o p data = .ok true

instance {lower upper : Str → Str} {o : SortOpts} {p : Path} {data : Bytes} : Decidable (Matches lower upper o p data) :=
  inferInstanceAs (Decidable (_ = _))

theorem sortCheck_some {lower upper : Str → Str} {o : SortOpts} {d : Str} {fs : FS} {p : Path} {data : Bytes} (hd : d ≠ []) (hf : fs p = some data) :
    sortCheck lower upper o (some d) fs p =
      if Matches lower upper o p data then (renames fs p (posixJoin2 d (basename p)), some p) else (fs, none) := by
  unfold sortCheck
  rw [hf]
  dsimp only
  split
  · rename_i h
    rw [if_pos (show Matches lower upper o p data from h)]
    rw [if_neg hd]
  · rename_i h
    rw [if_neg (show ¬ Matches lower upper o p data from fun hc => h hc)]

/-- C93: without -o the SRR files that match are listed, in order, and no file changes. -/
theorem sort_lists {lower upper : Str → Str} {o : SortOpts} {fs : FS} {l : List Path} {data : Path → Bytes} (hf : ∀ p ∈ l, fs p = some (data p)) :
    sortAll lower upper o none fs l = (fs, l.filter fun p => decide (Matches lower upper o p (data p))) := by
  induction l with
  | nil => rfl
  | cons p l ih =>
    have h1 : sortCheck lower upper o none fs p = (fs, if Matches lower upper o p (data p) then some p else none) := by
      unfold sortCheck
      rw [hf p (by simp)]
      dsimp only
      split
      · rename_i h; rw [if_pos (show Matches lower upper o p (data p) from h)]
      · rename_i h; rw [if_neg (show ¬ Matches lower upper o p (data p) from fun hc => h hc)]
    unfold sortAll
    rw [h1]
    dsimp only
    rw [ih fun q hq => hf q (by simp [hq]), List.filter_cons]
    by_cases hm : Matches lower upper o p (data p) <;> simp [hm]

/-- C93: with -o each SRR file that matches is moved into the folder, with its contents, and each other one stays; this for SRR files with
different names of which there are none in the folder yet.  No other file changes. -/
theorem sort_moves_partial {lower upper : Str → Str} {o : SortOpts} {d : Str} {l : List Path} {data : Path → Bytes} (hd : d ≠ []) :
    ∀ {fs : FS}, l.Nodup → (∀ p ∈ l, fs p = some (data p)) →
    (∀ p ∈ l, fs (posixJoin2 d (basename p)) = none) → (l.map fun p => posixJoin2 d (basename p)).Nodup →
    ∃ fs', sortAll lower upper o (some d) fs l = (fs', l.filter fun p => decide (Matches lower upper o p (data p))) ∧
      (∀ p ∈ l, if Matches lower upper o p (data p) then fs' (posixJoin2 d (basename p)) = some (data p) ∧ fs' p = none
        else fs' p = some (data p)) ∧
      ∀ q, q ∉ l → q ∉ l.map (fun p => posixJoin2 d (basename p)) → fs' q = fs q := by
  induction l with
  | nil => intro fs _ _ _ _; exact ⟨fs, rfl, by simp, fun _ _ _ => rfl⟩
  | cons p l ih =>
    intro fs hnd hf hnew hdn
    rw [List.nodup_cons] at hnd
    rw [List.map_cons, List.nodup_cons] at hdn
    have hp := hf p (by simp)
    have hpd := hnew p (by simp)
    have hpne : posixJoin2 d (basename p) ≠ p := by
      intro h; rw [h, hp] at hpd; cases hpd
    unfold sortAll
    rw [sortCheck_some hd hp]
    by_cases hm : Matches lower upper o p (data p)
    · rw [if_pos hm]
      dsimp only
      have hr : renames fs p (posixJoin2 d (basename p)) = (fs.set (posixJoin2 d (basename p)) (some (data p))).set p none := by
        unfold renames
        rw [if_neg (Ne.symm hpne), hp]
      have hother : ∀ q, q ≠ p → q ≠ posixJoin2 d (basename p) → renames fs p (posixJoin2 d (basename p)) q = fs q := by
        intro q h1 h2
        rw [hr, FS.set_ne _ _ h1, FS.set_ne _ _ h2]
      have hlne : ∀ q ∈ l, q ≠ posixJoin2 d (basename p) := by
        rintro q hq rfl
        rw [hf _ (by simp [hq])] at hpd
        cases hpd
      have hlp : ∀ q ∈ l, q ≠ p := by
        rintro q hq rfl
        exact hnd.1 hq
      have hdl : ∀ q ∈ l, posixJoin2 d (basename q) ≠ posixJoin2 d (basename p) := fun q hq he => hdn.1 (List.mem_map.2 ⟨q, hq, he⟩)
      have hdp : ∀ q ∈ l, posixJoin2 d (basename q) ≠ p := by
        intro q hq he
        have := hnew q (by simp [hq])
        rw [he, hp] at this
        cases this
      obtain ⟨fs', i1, i2, i3⟩ := ih (fs := renames fs p (posixJoin2 d (basename p))) hnd.2
        (fun q hq => by rw [hother q (hlp q hq) (hlne q hq)]; exact hf q (by simp [hq]))
        (fun q hq => by rw [hother _ (hdp q hq) (hdl q hq)]; exact hnew q (by simp [hq])) hdn.2
      rw [i1]
      refine ⟨fs', ?_, ?_, ?_⟩
      · simp [hm]
      · intro q hq
        rcases List.mem_cons.1 hq with rfl | hq
        · rw [if_pos hm]
          constructor
          · rw [i3 _ (fun h => hlne _ h rfl) hdn.1, hr, FS.set_ne _ _ hpne, FS.set_eq]
          · rw [i3 q hnd.1 (fun h => by
              obtain ⟨x, hx, he⟩ := List.mem_map.1 h
              exact hdp x hx he), hr, FS.set_eq]
        · exact i2 q hq
      · intro q h1 h2
        simp only [List.mem_cons, not_or, List.map_cons] at h1 h2
        rw [i3 q h1.2 h2.2, hother q h1.1 h2.1]
    · rw [if_neg hm]
      dsimp only
      obtain ⟨fs', i1, i2, i3⟩ := ih (fs := fs) hnd.2 (fun q hq => hf q (by simp [hq])) (fun q hq => hnew q (by simp [hq])) hdn.2
      rw [i1]
      refine ⟨fs', ?_, ?_, ?_⟩
      · simp [hm]
      · intro q hq
        rcases List.mem_cons.1 hq with rfl | hq
        · rw [if_neg hm, i3 q hnd.1 (fun h => by
            obtain ⟨x, hx, he⟩ := List.mem_map.1 h
            have := hnew x (by simp [hx])
            rw [he, hp] at this
            cases this)]
          exact hp
        · exact i2 q hq
      · intro q h1 h2
        simp only [List.mem_cons, not_or, List.map_cons] at h1 h2
        exact i3 q h1.2 h2.2

/-- C93, disagreement: an SRR file of the same name that is already in the folder is overwritten; so of two SRR files with the same name
only the last one is left. -/
theorem sort_overwrites {lower upper : Str → Str} {o : SortOpts} {d : Str} {fs : FS} {p : Path} {data other : Bytes} (hd : d ≠ []) (hf : fs p = some data)
    (hm : Matches lower upper o p data) (_ : fs (posixJoin2 d (basename p)) = some other) (hne : posixJoin2 d (basename p) ≠ p) :
    ∃ fs', sortAll lower upper o (some d) fs [p] = (fs', [p]) ∧ fs' (posixJoin2 d (basename p)) = some data ∧ fs' p = none := by
  unfold sortAll sortAll
  rw [sortCheck_some hd hf, if_pos hm]
  refine ⟨renames fs p (posixJoin2 d (basename p)), rfl, ?_, ?_⟩
  · unfold renames
    rw [if_neg (Ne.symm hne), FS.set_ne _ _ hne, FS.set_eq, hf]
  · unfold renames
    rw [if_neg (Ne.symm hne), FS.set_eq]

/-! ### Examples and disagreements -/

set_option maxRecDepth 100000

/-- An SRR with these stored files, all empty, and these volumes without blocks. -/
def sortSrr (stored vols : List String) : Bytes :=
  ((mkSrrHeader (str "pyReScene")).toOption.getD []) ++ (stored.flatMap fun n => (mkStored (str n) 0).toOption.getD []) ++
    vols.flatMap fun n => (mkRarFile (str n)).toOption.getD []

/-- The names in an SRR, computed. -/
def namesIn (data : Bytes) : Option (List (Nat × Option Str)) :=
  (readAll data).toOption.map fun bs => bs.map fun b => (b.btype, (nameOf b).toOption)

example : namesIn (sortSrr ["a.nfo", "b.jpeg"] ["A.rar"]) =
    some [(0x69, none), (0x6A, some (str "a.nfo")), (0x6A, some (str "b.jpeg")), (0x71, some (str "A.rar"))] := by decide +kernel

example : sortMatch lowerStr id { peer2peer := true } (str "x.srr") (sortSrr ["a.nfo"] ["A.rar"]) = .ok true ∧
    sortMatch lowerStr id { nonfo := true } (str "x.srr") (sortSrr ["a.NFO"] ["A.rar"]) = .ok false ∧
    sortMatch lowerStr id { nosfv := true, verify := true } (str "x.srr") (sortSrr ["a.NFO"] ["A.rar"]) = .ok true ∧
    sortMatch lowerStr id { duplicates := true } (str "x.srr") (sortSrr ["a", "b", "a"] []) = .ok true ∧
    sortMatch lowerStr id { lowercase := true } (str "/d/A.B-grp.srr") (sortSrr ["a"] []) = .ok true := by decide +kernel

/-- C93, disagreement: images are not found when the extension is .jpeg or in capitals. -/
theorem jpeg_unlisted : checkImage lowerStr false (sortSrr ["cover.jpeg", "back.JPG"] []) = .ok false := by decide +kernel

/-- C93, disagreement: with -p only the first image counts: one without "proof" in its name is not found behind one with it. -/
theorem first_image_counts : checkImage lowerStr true (sortSrr ["proof.jpg", "cover.jpg"] []) = .ok false ∧
    checkImage lowerStr true (sortSrr ["cover.jpg", "proof.jpg"] []) = .ok true := by decide +kernel

/-- C93, disagreement: two NFO files are not noticed. -/
theorem nfos_unlisted : sortMatch lowerStr id { nfos := true } (str "x.srr") (sortSrr ["a.nfo", "b.nfo"] []) = .ok false := by decide +kernel

/-- C93, disagreement: dirfixes are shown with -d, but are not matches and are not moved. -/
theorem dirfix_stays {lower upper : Str → Str} {d : Option Str} {fs : FS} {l : List Path} : sortAll lower upper { dirfix := true } d fs l = (fs, []) := by
  induction l with
  | nil => rfl
  | cons p l ih =>
    have : sortCheck lower upper { dirfix := true } d fs p = (fs, none) := by
      unfold sortCheck
      cases fs p <;> rfl
    unfold sortAll
    rw [this]
    dsimp only
    rw [ih]
    rfl

end Rescene.Props
