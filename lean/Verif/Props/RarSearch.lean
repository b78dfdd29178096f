import Verif.Spec.RarSearch
import Verif.Lemmas.Crc
import Verif.Props.Compression
/-
C87: the search for the RAR executable that made a compressed file.
-/
namespace Rescene.Props
open Rescene Rescene.Spec

/-! ### The check of an archive -/

theorem firstCrc_ok : ∀ (fuel start : Nat) (d : Bytes) (c : BitVec 32), start < fuel → start ≤ d.length →
    firstCrc fuel start d c = .ok (crc32 (d.take start) c) := by
  intro fuel
  induction fuel with
  | zero => intro _ _ _ h; omega
  | succ fuel ih =>
    intro start d c hf hd
    rw [firstCrc]
    by_cases h0 : start = 0
    · subst h0; simp [crc32]
    · rw [if_neg h0]
      dsimp only
      have hn : ∃ n, (if start > 8192 then 8192 else start) = n ∧ 0 < n ∧ n ≤ start := by
        refine ⟨_, rfl, ?_, ?_⟩ <;> split <;> omega
      obtain ⟨n, hn, h1, h2⟩ := hn
      rw [hn, ih _ _ _ (by omega) (by rw [List.length_drop]; omega), ← crc32_append]
      congr 2
      rw [List.take_drop, Nat.add_sub_cancel' h2]
      have : d.take n = (d.take start).take n := by rw [List.take_take, Nat.min_eq_left h2]
      rw [this, List.take_append_drop]

/-- C87: an archive is accepted exactly when it begins like the original one. -/
theorem accepts_iff (n crc : Nat) (a : Archive) (hc : crc ≠ 0xFFFFFFFF) :
    ∃ r, accepts n crc a = .ok r ∧ (r = true ↔ Begins n crc a) := by
  unfold accepts Begins
  by_cases h1 : n > a.packed.length
  · rw [if_pos h1]
    refine ⟨_, rfl, ?_⟩
    constructor
    · intro h; exact absurd (by simpa using h : 0xFFFFFFFF = crc).symm hc
    · rintro (h | h) <;> omega
  · rw [if_neg h1]
    by_cases h2 : n = a.packed.length
    · rw [if_pos h2]
      refine ⟨_, rfl, ?_⟩
      cases hh : a.heads with
      | nil => simp [← h2]; exact ⟨Eq.symm, Eq.symm⟩
      | cons x t =>
        obtain ⟨c, s⟩ := x
        simp [← h2]
    · rw [if_neg h2, firstCrc_ok _ _ _ _ (by omega) (by omega)]
      refine ⟨_, rfl, ?_⟩
      have : n < a.packed.length := by omega
      simp [this, h2]

/-! ### The loops -/

theorem increase_bounds (s : MtSettings) (major minor : Nat) (cur : Option Int) (x : Int)
    (h : increaseThreads s major minor cur = some x) : (0 ≤ x ∨ ∃ c, cur = some c ∧ c < x) ∧ x ≤ 32 ∧ ∀ c, cur = some c → c < x := by
  have h32 : maxThreads major minor ≤ 32 := by unfold maxThreads; split <;> omega
  have hlo : 0 ≤ (if s.mtMin > 0 then s.mtMin else minThreads major minor) := by unfold minThreads; split <;> (try split) <;> omega
  unfold increaseThreads at h
  dsimp only at h
  generalize (if s.mtMin > 0 then s.mtMin else minThreads major minor) = lo at h hlo
  generalize (if s.mtMax > 0 then s.mtMax else maxThreads major minor) = hi at h
  split at h
  · split at h
    · have := List.find?_some h
      simp only [Bool.and_eq_true, decide_eq_true_eq] at this
      refine ⟨.inl (by omega), by omega, ?_⟩
      intro c hc; cases hc
    · split at h
      · simp only [Option.some.injEq] at h
        refine ⟨.inl (by omega), by omega, ?_⟩
        intro c hc; cases hc
      · simp at h
  · rename_i c
    split at h
    · have := List.find?_some h
      simp only [Bool.and_eq_true, decide_eq_true_eq] at this
      refine ⟨.inl (by omega), by omega, ?_⟩
      intro c' hc; cases hc; omega
    · split at h
      · simp only [Option.some.injEq] at h
        refine ⟨.inr ⟨c, rfl, by omega⟩, by omega, ?_⟩
        intro c' hc; cases hc; omega
      · simp at h

/-- Forty steps are enough for any settings. -/
theorem tried_exists (s : MtSettings) (major minor : Nat) : ∀ (fuel : Nat) (cur : Option Int),
    (∀ c, cur = some c → 0 ≤ c ∧ c ≤ 32 ∧ 33 ≤ c + fuel) → (cur = none → 34 ≤ fuel) →
    ∃ l, threadsTried s major minor fuel cur = .ok l := by
  intro fuel
  induction fuel with
  | zero =>
    intro cur h1 h2
    cases cur with
    | none => exact absurd (h2 rfl) (by omega)
    | some c => exact absurd (h1 c rfl) (by omega)
  | succ fuel ih =>
    intro cur h1 h2
    rw [threadsTried]
    cases hi : increaseThreads s major minor cur with
    | none => exact ⟨[], rfl⟩
    | some x =>
      obtain ⟨b1, b2, b3⟩ := increase_bounds s major minor cur x hi
      have hx : 0 ≤ x := by
        rcases b1 with h | ⟨c, hc, hlt⟩
        · exact h
        · have := h1 c hc; omega
      obtain ⟨l, hl⟩ := ih (some x) (by
        intro c hc
        cases hc
        refine ⟨hx, b2, ?_⟩
        cases cur with
        | none => have := h2 rfl; omega
        | some c => have := h1 c rfl; have := b3 c rfl; omega) (by intro h; cases h)
      exact ⟨x :: l, by simp only [hl]; rfl⟩

/-- The thread counts that are tried for an executable (C45 says which these are). -/
def countsOf (s : MtSettings) (v : RarVersion) : List (Option Int) :=
  if v.setsThreads then (match threadsTried s v.major v.minor 40 none with | .ok l => l.map some | .error _ => [])
  else [none]

theorem threadLoop_find (w : RarWorld) (piece : Bytes) (b : PackedPart) (v : RarVersion) (acc : RarArgs → Bool)
    (ha : ∀ a, tryVersion w piece b v a = .ok (acc a)) : ∀ (fuel : Nat) (a : RarArgs) (l : List Int),
    threadsTried w.settings v.major v.minor fuel a.threads = .ok l →
    threadLoop w piece b v fuel a = .ok ((l.map fun c => { a with threads := some c }).find? acc) := by
  intro fuel
  induction fuel with
  | zero => intro a l h; cases h
  | succ fuel ih =>
    intro a l h
    rw [threadsTried] at h
    rw [threadLoop]
    cases hi : increaseThreads w.settings v.major v.minor a.threads with
    | none => rw [hi] at h; cases h; rfl
    | some x =>
      rw [hi] at h
      simp only [bind_eq_ok] at h
      obtain ⟨r, hr, h⟩ := h
      cases h
      dsimp only
      rw [ha, List.map_cons, List.find?_cons]
      cases hx : acc { a with threads := some x } with
      | true => rfl
      | false => exact ih { a with threads := some x } r hr

theorem attempt_find (w : RarWorld) (piece : Bytes) (b : PackedPart) (v : RarVersion) (acc : RarArgs → Bool)
    (ha : ∀ a, tryVersion w piece b v a = .ok (acc a)) (a : RarArgs) (h0 : a.threads = none) :
    attempt w piece b v a = .ok (((countsOf w.settings v).map fun c => { a with threads := c }).find? acc) := by
  unfold attempt countsOf
  by_cases hs : v.setsThreads
  · rw [if_pos hs, if_pos hs]
    obtain ⟨l, hl⟩ := tried_exists w.settings v.major v.minor 40 none (by intro c h; cases h) (by intro _; omega)
    rw [threadLoop_find w piece b v acc ha 40 a l (by rw [h0]; exact hl), hl]
    simp only [List.map_map]
    rfl
  · rw [if_neg hs, if_neg hs, ha]
    have : ({ a with threads := none } : RarArgs) = a := by cases a; cases h0; rfl
    simp only [List.map_cons, List.map_nil, this, List.find?_cons, List.find?_nil]
    cases acc a <;> rfl

/-- All the attempts, in order: for each executable the file alone, then with the file before it. -/
def attempts (s : MtSettings) (prev : Option Str) : List RarVersion → RarArgs → List (RarVersion × RarArgs)
  | [], _ => []
  | v :: vs, a =>
    ((countsOf s v).map fun c => (v, { a with threads := c })) ++
    ((prev.toList.flatMap fun p => (countsOf s v).map fun c => (v, { a with threads := c, before := [p] })) ++
     attempts s prev vs { a with threads := none, before := [], after := [] })

/-- C87: the search ends with the first attempt, in the order of `attempts`, that makes an archive
which is accepted, and finds nothing only when there is none. -/
theorem search_first (w : RarWorld) (piece : Bytes) (b : PackedPart) (prev : Option Str) (acc : RarVersion → RarArgs → Bool)
    (ha : ∀ v a, tryVersion w piece b v a = .ok (acc v a)) : ∀ (vs : List RarVersion) (a : RarArgs), a.threads = none →
    searchLoop w piece b (.ok prev) vs a = .ok ((attempts w.settings prev vs a).find? fun x => acc x.1 x.2) := by
  have hf : ∀ (v : RarVersion) (g : Option Int → RarArgs) (l : List (Option Int)),
      (l.map fun c => (v, g c)).find? (fun x => acc x.1 x.2) = ((l.map g).find? (acc v)).map fun r => (v, r) := by
    intro v g l
    induction l with
    | nil => rfl
    | cons c l ih =>
      rw [List.map_cons, List.find?_cons, List.map_cons, List.find?_cons, ih]
      cases acc v (g c) <;> rfl
  intro vs
  induction vs with
  | nil => intro a _; rfl
  | cons v vs ih =>
    intro a h0
    unfold searchLoop
    rw [attempt_find w piece b v (acc v) (ha v) a h0, attempts, List.find?_append, hf]
    cases h1 : List.find? (acc v) ((countsOf w.settings v).map fun c => { a with threads := c }) with
    | some g => rfl
    | none =>
      dsimp only [Option.map_none, Option.none_or]
      cases prev with
      | none =>
        dsimp only
        rw [ih _ rfl, Option.toList_none, List.flatMap_nil, List.nil_append]
      | some p =>
        dsimp only
        rw [attempt_find w piece b v (acc v) (ha v) _ rfl, Option.toList_some, List.flatMap_cons, List.flatMap_nil,
          List.append_nil, List.find?_append, hf]
        dsimp only
        cases h2 : List.find? (acc v) ((countsOf w.settings v).map fun c => { a with threads := c, before := [p] }) with
        | some g => rfl
        | none =>
          dsimp only [Option.map_none, Option.none_or]
          rw [ih _ rfl]

/-! ### The command line -/

/-- C87: what is run is the command line for the parameters, without empty arguments. -/
theorem arglist_command (a : RarArgs) (v : RarVersion) (h1 : a.level ≠ []) (h2 : a.dict ≠ []) (h3 : a.archive ≠ [])
    (h4 : a.all = []) :
    a.arglist v = command v a.level a.dict a.solid a.threads a.split a.archive (a.before ++ a.store ++ a.after) := by
  have e1 : (str "a" = []) = False := by decide
  have e2 : (str "-s" = []) = False := by decide
  have e11 : (str "-s-" = []) = False := by decide
  have e3 : (str "-ds" = []) = False := by decide
  have e4 : (str "-o+" = []) = False := by decide
  have e5 : (str "-ep" = []) = False := by decide
  have e6 : (str "-idcd" = []) = False := by decide
  have e7 : (str "-vn" = []) = False := by decide
  have e8 : (str "-ma4" = []) = False := by decide
  have e9 : ∀ c : Int, (str ("-mt" ++ toString c) = []) = False := by
    intro c; simp [str, String.toList_append]
  have e10 : ∀ n : Nat, (str ("-v" ++ toString n ++ "b") = []) = False := by
    intro c; simp [str, String.toList_append]
  unfold RarArgs.arglist command namingFlag forceRar4
  rw [h4, if_neg (show ¬ (([] : List Str) ≠ []) by simp)]
  congr 1
  cases a.solid <;> cases a.threads <;> cases hasText (str "_rar2") v.path <;>
    cases (hasText (str "_rar5") v.path || hasText (str "_rar6") v.path) <;>
    by_cases hs : a.split = 0 <;>
    simp only [hs, if_true, if_false, Option.toList_none, Option.toList_some, List.map_nil, List.map_cons, List.append_nil,
      List.filter_cons, List.filter_nil, e1, e2, e3, e4, e5, e6, e7, e8, e9, e10, e11, h1, h2, h3, ne_eq, not_true_eq_false, not_false_eq_true,
      decide_true, decide_false, Bool.false_eq_true, List.cons_append, List.nil_append]

/-! ### The test piece -/

theorem grabPiece_spec (packed : Bytes → Res Nat) (src : Bytes) (sizeFull sizeMin : Nat) (amount : Nat → Nat) :
    ∀ (l : List Nat) (p piece : Bytes), grabPiece packed src sizeFull sizeMin amount l p = .ok piece → l ≠ [] →
      ∃ n, n ≤ sizeFull ∧ piece = src.take n ∧
        (n = sizeFull ∨ (∃ s, packed piece = .ok s ∧ sizeMin ≤ s) ∨ ∃ i, l.getLast? = some i ∧ n = min sizeFull (amount i)) := by
  intro l
  induction l with
  | nil => intro _ _ _ h; exact absurd rfl h
  | cons i l ih =>
    intro p piece h _
    rw [grabPiece] at h
    split at h
    · rename_i hn
      cases h
      exact ⟨_, by omega, rfl, .inl hn⟩
    · split at h
      · cases h
      · rename_i s hs
        split at h
        · rename_i hge
          cases h
          exact ⟨_, by omega, rfl, .inr (.inl ⟨s, hs, hge⟩)⟩
        · cases l with
          | nil =>
            rw [grabPiece] at h
            cases h
            exact ⟨_, by omega, rfl, .inr (.inr ⟨i, rfl, rfl⟩)⟩
          | cons j l =>
            obtain ⟨n, h1, h2, h3⟩ := ih _ _ h (by simp)
            refine ⟨n, h1, h2, ?_⟩
            rcases h3 with h3 | h3 | ⟨k, hk, h3⟩
            · exact .inl h3
            · exact .inr (.inl h3)
            · exact .inr (.inr ⟨k, by rw [List.getLast?_cons_cons]; exact hk, h3⟩)

theorem grabPiece_ok (packed : Bytes → Res Nat) (src : Bytes) (sizeFull sizeMin : Nat) (amount : Nat → Nat)
    (hp : ∀ p, ∃ n, packed p = .ok n) :
    ∀ (l : List Nat) (p : Bytes), ∃ piece, grabPiece packed src sizeFull sizeMin amount l p = .ok piece := by
  intro l
  induction l with
  | nil => intro p; exact ⟨p, rfl⟩
  | cons i l ih =>
    intro p
    rw [grabPiece]
    split
    · exact ⟨_, rfl⟩
    · obtain ⟨n, hn⟩ := hp (src.take (min sizeFull (amount i)))
      rw [hn]
      dsimp only
      split
      · exact ⟨_, rfl⟩
      · exact ih _

/-! ### The search -/

theorem threadLoop_sound (w : RarWorld) (piece : Bytes) (b : PackedPart) (v : RarVersion) : ∀ (fuel : Nat) (a g : RarArgs),
    threadLoop w piece b v fuel a = .ok (some g) →
    tryVersion w piece b v g = .ok true ∧ ∃ c, g = { a with threads := c } := by
  intro fuel
  induction fuel with
  | zero => intro a g h; cases h
  | succ fuel ih =>
    intro a g h
    rw [threadLoop] at h
    split at h
    · cases h
    · split at h
      · cases h
      · rename_i ht
        cases h
        exact ⟨ht, _, rfl⟩
      · obtain ⟨h1, c, h2⟩ := ih _ _ h
        exact ⟨h1, c, h2⟩

theorem attempt_sound (w : RarWorld) (piece : Bytes) (b : PackedPart) (v : RarVersion) (a g : RarArgs)
    (h : attempt w piece b v a = .ok (some g)) : tryVersion w piece b v g = .ok true ∧ ∃ c, g = { a with threads := c } := by
  unfold attempt at h
  split at h
  · exact threadLoop_sound w piece b v 40 a g h
  · split at h
    · cases h
    · rename_i ht
      cases h
      exact ⟨ht, a.threads, by cases a; rfl⟩
    · cases h

theorem searchLoop_sound (w : RarWorld) (piece : Bytes) (b : PackedPart) (prev : Res (Option Str)) :
    ∀ (vs : List RarVersion) (a : RarArgs) (v : RarVersion) (g : RarArgs),
    searchLoop w piece b prev vs a = .ok (some (v, g)) →
    v ∈ vs ∧ tryVersion w piece b v g = .ok true ∧ ∃ c x y, g = { a with threads := c, before := x, after := y } := by
  intro vs
  induction vs with
  | nil => intro a v g h; cases h
  | cons u vs ih =>
    intro a v g h
    unfold searchLoop at h
    split at h
    · cases h
    · rename_i g' hg
      cases h
      obtain ⟨h1, c, h2⟩ := attempt_sound _ _ _ _ _ _ hg
      exact ⟨by simp, h1, c, a.before, a.after, h2⟩
    · split at h
      · cases h
      · obtain ⟨h0, h1, c, x, y, h2⟩ := ih _ _ _ h
        exact ⟨by simp [h0], h1, c, x, y, h2⟩
      · split at h
        · cases h
        · rename_i g' hg
          cases h
          obtain ⟨h1, c, h2⟩ := attempt_sound _ _ _ _ _ _ hg
          exact ⟨by simp, h1, c, _, a.after, h2⟩
        · obtain ⟨h0, h1, c, x, y, h2⟩ := ih _ _ _ h
          exact ⟨by simp [h0], h1, c, x, y, h2⟩

theorem mem_executables {α : Type} (older : α → Bool) (previous l : List α) (x : α) :
    x ∈ rarExecutables older previous l ↔ x ∈ previous ∨ x ∈ l := by
  obtain ⟨r, h1, h2⟩ := executables_all older previous l
  rw [h1, List.mem_append, h2.mem_iff]

theorem dictSize_some (flags : Nat) : ∃ n, dictSize flags = some n := by
  unfold dictSize
  repeat' (first | exact ⟨_, rfl⟩ | split)
  rename_i h
  exact absurd (by simp) h

theorem level_ne (m : Nat) (l : Str) (h : compressionParameter m = .ok l) : l ≠ [] := by
  unfold compressionParameter at h
  repeat' (first | (cases h; done) | split at h)
  all_goals (cases h; decide)

theorem dict_ne (flags : Nat) : dictParameter flags ≠ [] := by
  unfold dictParameter
  repeat' (first | decide | split)
  rename_i h
  exact absurd (by simp) h

/-- C87: an executable is chosen only when, with the command line that is kept for it, it made of
the beginning of the source file an archive that begins like the original one. -/
theorem version_sound (w : RarWorld) (archived : Archived) (blocks : List PackedPart) (i : Nat) (b : PackedPart)
    (src : Bytes) (out pieceName : Str) (sizeFull : Nat) (more : Option Str) (v : RarVersion) (a : RarArgs)
    (hout : out ≠ [])
    (h : searchVersion w archived blocks i b src out pieceName sizeFull more = .ok (some (v, a))) :
    (v ∈ w.repo ∨ ∃ x ∈ archived, v = x.2.2) ∧
    ∃ n r level, compressionParameter b.method = .ok level ∧
      w.run (src.take n) v (command v level (dictParameter b.flags) (b.flags &&& 0x10 ≠ 0) a.threads a.split out
        (a.before ++ [pieceName] ++ a.after)) = .ok r ∧
      Begins b.psize b.crc r := by
  unfold searchVersion at h
  simp only [bind_eq_ok] at h
  obtain ⟨level, hl, h⟩ := h
  split at h
  · split at h <;> cases h
  · rename_i hc
    split at h
    · cases h
    · split at h
      · cases h
      · split at h
        · cases h
        · split at h
          · cases h
          · rename_i piece hg
            obtain ⟨n, _, hn, _⟩ := grabPiece_spec _ _ _ _ _ _ _ _ hg (by decide)
            obtain ⟨h1, h2, c, x, y, h3⟩ := searchLoop_sound _ _ _ _ _ _ _ _ h
            refine ⟨?_, n, ?_⟩
            · rw [mem_executables] at h1
              rcases h1 with h1 | h1
              · right
                unfold previousGood at h1
                split at h1
                · cases h1
                · rename_i x t
                  rw [List.mem_singleton] at h1
                  exact ⟨x, by simp, h1⟩
              · exact .inl h1
            · unfold tryVersion at h2
              simp only [bind_eq_ok] at h2
              obtain ⟨r, hr, h2⟩ := h2
              obtain ⟨q, hq, hb⟩ := accepts_iff b.psize b.crc r hc
              rw [hq] at h2
              cases h2
              refine ⟨r, level, hl, ?_, hb.mp rfl⟩
              rw [arglist_command] at hr
              · rw [← hn]
                subst h3
                exact hr
              · subst h3; exact level_ne _ _ hl
              · subst h3; exact dict_ne _
              · subst h3; exact hout
              · subst h3; rfl

theorem mem_counts (s : MtSettings) (hs : s.mtSet = []) (v : RarVersion) (c : Option Int) (h : Threads s v c) :
    c ∈ countsOf s v := by
  unfold Threads at h
  unfold countsOf
  by_cases hv : v.setsThreads
  · rw [if_pos hv] at h ⊢
    obtain ⟨n, rfl, h1, h2, h3⟩ := h
    have hlo : lowest s v.major v.minor ≤ n := h1
    have hhi : n ≤ highest s v.major v.minor := by
      unfold highest
      dsimp only
      generalize (if v.major < 4 ∨ v.major = 4 ∧ v.minor < 20 then (16 : Int) else 32) = most at h3 ⊢
      split
      · exact h2 (by omega)
      · exact h3
    have hr : highest s v.major v.minor ≤ 32 := by
      unfold highest; dsimp only; split <;> (try split) <;> omega
    have hl0 : 0 ≤ lowest s v.major v.minor := by
      unfold lowest; split <;> (try split) <;> omega
    rw [threads_range s hs v.major v.minor (by omega) 40 (by omega)]
    exact List.mem_map.mpr ⟨n, (threads_range_mem s v.major v.minor (by omega) n).mpr ⟨hlo, hhi⟩, rfl⟩
  · rw [if_neg hv] at h ⊢
    subst h
    simp

theorem mem_attempts (s : MtSettings) (prev : Option Str) (v : RarVersion) (c : Option Int) (hc : c ∈ countsOf s v) :
    ∀ (vs : List RarVersion) (a : RarArgs), v ∈ vs → a.before = [] → a.after = [] →
    (v, { a with threads := c }) ∈ attempts s prev vs a := by
  intro vs
  induction vs with
  | nil => intro a h; cases h
  | cons u vs ih =>
    intro a h h1 h2
    rw [attempts, List.mem_append, List.mem_append]
    rcases List.mem_cons.mp h with rfl | h
    · exact .inl (List.mem_map.mpr ⟨c, hc, rfl⟩)
    · right; right
      have := ih { a with threads := none, before := [], after := [] } h rfl rfl
      cases a
      cases h1
      cases h2
      exact this

/-- The situation of a search: a file of a compression method RAR has, not made by RAR 2.0, with
packed data, executables to try that make archives, and a known file before it. -/
structure Searchable (w : RarWorld) (archived : Archived) (blocks : List PackedPart) (i : Nat) (b : PackedPart) (level : Str) : Prop where
  level : compressionParameter b.method = .ok level
  crc : b.crc ≠ 0xFFFFFFFF
  repo : w.repo ≠ []
  data : fullSize b blocks ≠ 0
  runs : ∀ p v c, ∃ r, w.run p v c = .ok r ∧ r.heads ≠ []
  before : ∃ p, previousSource archived blocks i = .ok p

theorem search_eq {w : RarWorld} {archived : Archived} {blocks : List PackedPart} {i : Nat} {b : PackedPart} {level : Str}
    (h : Searchable w archived blocks i b level) (src : Bytes) (out pieceName : Str) (sizeFull : Nat) (more : Option Str) :
    ∃ n p split, previousSource archived blocks i = .ok p ∧ n ≤ sizeFull ∧
      searchVersion w archived blocks i b src out pieceName sizeFull more =
        searchLoop w (src.take n) b (.ok p) (rarExecutables (·.older) (previousGood archived) w.repo)
          { level := level, dict := dictParameter b.flags, solid := b.flags &&& 0x10 ≠ 0, threads := none,
            split := split, archive := out, before := [], store := [pieceName], after := more.toList, all := [] } := by
  obtain ⟨p, hp⟩ := h.before
  obtain ⟨window, hw⟩ := dictSize_some b.flags
  have hr : ∃ newest, w.repo.getLast? = some newest := by
    cases hx : w.repo.getLast? with
    | none => exact absurd (List.getLast?_eq_none_iff.mp hx) h.repo
    | some x => exact ⟨x, rfl⟩
  obtain ⟨newest, hnew⟩ := hr
  unfold searchVersion
  rw [h.level]
  simp only [ok_bind]
  rw [if_neg h.crc, hnew, hw]
  dsimp only
  rw [if_neg h.data]
  have hk : ∀ (args : RarArgs) (q : Bytes), ∃ m, (w.run q newest (args.arglist newest) >>= packedSizeOf) = .ok m := by
    intro args q
    obtain ⟨r, h1, h2⟩ := h.runs q newest (args.arglist newest)
    rw [h1, ok_bind]
    unfold packedSizeOf
    cases hh : r.heads with
    | nil => exact absurd hh h2
    | cons x t => exact ⟨_, rfl⟩
  obtain ⟨piece, hg⟩ := grabPiece_ok _ src sizeFull b.psize (pieceAmount sizeFull (fullSize b blocks) b.psize window)
    (hk { level := level, dict := dictParameter b.flags, solid := b.flags &&& 0x10 ≠ 0, threads := none,
          split := 0, archive := out, before := [], store := [pieceName], after := [], all := [] }) growSteps []
  obtain ⟨n, h1, h2, _⟩ := grabPiece_spec _ _ _ _ _ _ _ _ hg (by decide)
  rw [hg]
  refine ⟨n, p, if piece.length ≠ sizeFull then piece.length * 3 / 5 else 0, hp, h1, ?_⟩
  dsimp only
  rw [hp, ← h2]

/-- What `tryVersion` says when every run makes an archive. -/
theorem tryVersion_ok (w : RarWorld) (b : PackedPart) (hc : b.crc ≠ 0xFFFFFFFF)
    (hr : ∀ p v c, ∃ r, w.run p v c = .ok r ∧ r.heads ≠ []) (piece : Bytes) :
    ∃ acc : RarVersion → RarArgs → Bool, (∀ v a, tryVersion w piece b v a = .ok (acc v a)) ∧
      ∀ v a r, w.run piece v (a.arglist v) = .ok r → (acc v a = true ↔ Begins b.psize b.crc r) := by
  refine ⟨fun v a => match tryVersion w piece b v a with | .ok x => x | .error _ => false, ?_, ?_⟩
  · intro v a
    obtain ⟨r, h1, _⟩ := hr piece v (a.arglist v)
    obtain ⟨q, hq, _⟩ := accepts_iff b.psize b.crc r hc
    have : tryVersion w piece b v a = .ok q := by unfold tryVersion; rw [h1, ok_bind, hq]
    dsimp only
    rw [this]
  · intro v a r h
    obtain ⟨q, hq, hb⟩ := accepts_iff b.psize b.crc r hc
    have : tryVersion w piece b v a = .ok q := by unfold tryVersion; rw [h, ok_bind, hq]
    dsimp only
    rw [this]
    exact hb

/-- C87, as far as it holds: when nothing is found, no executable of the repository makes, with any
of the numbers of threads that are allowed, an archive that begins like the original one.  What is
missing: files of RAR 2.0 (`old_stops`), an unknown file before this one (`unknown_before_stops`)
and files that need the one behind them (`more_only_first`). -/
theorem search_exhaustive_partial {w : RarWorld} {archived : Archived} {blocks : List PackedPart} {i : Nat} {b : PackedPart}
    {level : Str} (h : Searchable w archived blocks i b level) (hs : w.settings.mtSet = []) (src : Bytes) (out pieceName : Str)
    (hout : out ≠ []) (sizeFull : Nat) :
    ∃ n split, n ≤ sizeFull ∧
      ((∃ v a, searchVersion w archived blocks i b src out pieceName sizeFull none = .ok (some (v, a))) ∨
       (searchVersion w archived blocks i b src out pieceName sizeFull none = .ok none ∧
        ∀ v ∈ w.repo, ∀ c, Threads w.settings v c → ∀ r,
          w.run (src.take n) v (command v level (dictParameter b.flags) (b.flags &&& 0x10 ≠ 0) c split out [pieceName]) = .ok r →
          ¬ Begins b.psize b.crc r)) := by
  obtain ⟨n, p, split, _, hn, heq⟩ := search_eq h src out pieceName sizeFull none
  refine ⟨n, split, hn, ?_⟩
  obtain ⟨acc, ha, hb⟩ := tryVersion_ok w b h.crc h.runs (src.take n)
  rw [heq, search_first w (src.take n) b p acc ha _ _ rfl]
  cases hf : List.find? (fun x => acc x.1 x.2) (attempts w.settings p (rarExecutables (·.older) (previousGood archived) w.repo)
      { level := level, dict := dictParameter b.flags, solid := b.flags &&& 0x10 ≠ 0, threads := none,
        split := split, archive := out, before := [], store := [pieceName], after := (none : Option Str).toList, all := [] }) with
  | some x => exact .inl ⟨x.1, x.2, rfl⟩
  | none =>
    refine .inr ⟨rfl, ?_⟩
    intro v hv c hc r hr hbeg
    have hm := mem_attempts w.settings p v c (mem_counts w.settings hs v c hc)
      (rarExecutables (·.older) (previousGood archived) w.repo)
      { level := level, dict := dictParameter b.flags, solid := b.flags &&& 0x10 ≠ 0, threads := none,
        split := split, archive := out, before := [], store := [pieceName], after := (none : Option Str).toList, all := [] }
      ((mem_executables _ _ _ _).mpr (.inr hv)) rfl rfl
    have := List.find?_eq_none.mp hf _ hm
    refine this ((hb _ _ r ?_).mpr hbeg)
    rw [arglist_command _ v (level_ne _ _ h.level) (dict_ne _) hout rfl]
    exact hr

/-- C87: a file of RAR 2.0, which has no CRC in its blocks, is never rebuilt: the first executable
ends the search with an error (main.py:2428 uses a name that is only set for other files). -/
theorem old_stops (w : RarWorld) (archived : Archived) (blocks : List PackedPart) (i : Nat) (b : PackedPart)
    (src : Bytes) (out pieceName : Str) (sizeFull : Nat) (more : Option Str) (level : Str)
    (hl : compressionParameter b.method = .ok level) (hc : b.crc = 0xFFFFFFFF) (hr : w.repo ≠ []) :
    searchVersion w archived blocks i b src out pieceName sizeFull more = .error .unboundLocal := by
  unfold searchVersion
  rw [hl]
  simp only [ok_bind]
  rw [if_pos hc]
  split
  · rename_i hv
    obtain ⟨x, hx⟩ := List.exists_mem_of_ne_nil _ hr
    have := (mem_executables (·.older) (previousGood archived) w.repo x).mpr (.inr hx)
    rw [hv] at this
    cases this
  · rfl

/-- C87: with the file behind it added, only the first executable is tried; for the others the
file is alone again, as in the search before (main.py:2462). -/
theorem more_only_first {w : RarWorld} {archived : Archived} {blocks : List PackedPart} {i : Nat} {b : PackedPart}
    {level : Str} (h : Searchable w archived blocks i b level) (src : Bytes) (out pieceName next : Str) (sizeFull : Nat)
    (v : RarVersion) (a : RarArgs)
    (hf : searchVersion w archived blocks i b src out pieceName sizeFull (some next) = .ok (some (v, a))) :
    (rarExecutables (·.older) (previousGood archived) w.repo).head? = some v ∨ a.after = [] := by
  obtain ⟨n, p, split, _, hn, heq⟩ := search_eq h src out pieceName sizeFull (some next)
  obtain ⟨acc, ha, hb⟩ := tryVersion_ok w b h.crc h.runs (src.take n)
  rw [heq, search_first w (src.take n) b p acc ha _ _ rfl] at hf
  have hm := List.mem_of_find?_eq_some (Except.ok.inj hf)
  cases hv : rarExecutables (·.older) (previousGood archived) w.repo with
  | nil => rw [hv] at hm; cases hm
  | cons u us =>
    rw [hv, attempts, List.mem_append, List.mem_append] at hm
    rcases hm with hm | hm | hm
    · obtain ⟨c, _, hc⟩ := List.mem_map.mp hm
      left; rw [(Prod.mk.inj hc).1]; rfl
    · obtain ⟨q, _, hm⟩ := List.mem_flatMap.mp hm
      obtain ⟨c, _, hc⟩ := List.mem_map.mp hm
      left; rw [(Prod.mk.inj hc).1]; rfl
    · right
      have key : ∀ (us : List RarVersion) (x : RarArgs), x.after = [] → (v, a) ∈ attempts w.settings p us x → a.after = [] := by
        intro us
        induction us with
        | nil => intro x _ hm; cases hm
        | cons u us ih =>
          intro x hx hm
          rw [attempts, List.mem_append, List.mem_append] at hm
          rcases hm with hm | hm | hm
          · obtain ⟨c, _, hc⟩ := List.mem_map.mp hm
            rw [← (Prod.mk.inj hc).2]; exact hx
          · obtain ⟨q, _, hm⟩ := List.mem_flatMap.mp hm
            obtain ⟨c, _, hc⟩ := List.mem_map.mp hm
            rw [← (Prod.mk.inj hc).2]; exact hx
          · exact ih _ rfl hm
      exact key us _ rfl hm

/-- C87: of a file that is not split, the packed data is not looked at: any archive of the right
size with the CRC of the file in its header is taken, whatever the data is. -/
theorem single_part_unchecked (n crc : Nat) (a a' : Archive) (h : a.packed.length = n) (h' : a'.packed.length = n)
    (hh : a.heads = a'.heads) : accepts n crc a = accepts n crc a' := by
  unfold accepts
  rw [h, h', hh]
  simp

/-- C87: the packed data that is handed out has the size of all the parts of the file, and was made
with a command line that a search found. -/
theorem compressed_size (w : RarWorld) (archived : Archived) (blocks : List PackedPart) (i : Nat) (b : PackedPart)
    (src : Bytes) (srcName out pieceName : Str) (sizeFull : Nat) (next : Option Str) (solid : Bool)
    (v : RarVersion) (a : RarArgs) (d : Bytes)
    (h : compressedFile w archived blocks i b src srcName out pieceName sizeFull next solid = .ok (v, a, d)) :
    d.length = fullSize b blocks ∧ (∃ r, w.full v (a.arglist v) = .ok r ∧ r.packed = d) ∧ a.store.head? = some srcName ∧
    ∃ more g, searchVersion w archived blocks i b src out pieceName sizeFull more = .ok (some (v, g)) ∧
      a.threads = g.threads ∧ a.level = g.level ∧ a.dict = g.dict ∧ a.before = g.before ∧ a.after = g.after := by
  unfold compressedFile at h
  simp only [bind_eq_ok] at h
  obtain ⟨first, h1, found, h2, h⟩ := h
  split at h
  · cases h
  · rename_i u g
    simp only [bind_eq_ok] at h
    obtain ⟨r, hr, h⟩ := h
    split at h
    · cases h
    · rename_i hl
      cases h
      refine ⟨by omega, ⟨r, hr, rfl⟩, ?_, ?_⟩
      · dsimp only [sourceFiles]
        split <;> rfl
      · unfold searchAgain at h2
        split at h2
        · cases h2
          exact ⟨_, g, h1, rfl, rfl, rfl, rfl, rfl⟩
        · split at h2
          · exact ⟨_, g, h2, rfl, rfl, rfl, rfl, rfl⟩
          · cases h2

/-- C87: when a search finds an executable for the file alone and it makes all of the packed data,
the data is handed out. -/
theorem compressed_ok (w : RarWorld) (archived : Archived) (blocks : List PackedPart) (i : Nat) (b : PackedPart)
    (src : Bytes) (srcName out pieceName : Str) (sizeFull : Nat) (v : RarVersion) (g : RarArgs) (r : Archive)
    (h : searchVersion w archived blocks i b src out pieceName sizeFull none = .ok (some (v, g)))
    (hu : ¬ b.usize < fullSize b blocks)
    (hr : w.full v ({ g with store := [srcName], solid := false }.arglist v) = .ok r)
    (hl : r.packed.length = fullSize b blocks) (next : Option Str) :
    ∃ a, compressedFile w archived blocks i b src srcName out pieceName sizeFull next false = .ok (v, a, r.packed) := by
  unfold compressedFile searchAgain sourceFiles
  rw [h]
  simp only [ok_bind, if_neg hu, Option.isNone_some, Bool.or_false, Bool.false_eq_true, if_false, hr]
  rw [if_neg (by omega)]
  exact ⟨_, rfl⟩

/-- C87: when nothing is found for the file alone, it is tried together with the file behind it, unless the archive is
solid or there is no such file; then the failure is reported. -/
theorem compressed_again (w : RarWorld) (archived : Archived) (blocks : List PackedPart) (i : Nat) (b : PackedPart)
    (src : Bytes) (srcName out pieceName : Str) (sizeFull : Nat)
    (h : searchVersion w archived blocks i b src out pieceName sizeFull none = .ok none) :
    (∀ (n : Str) (v : RarVersion) (g : RarArgs) (r : Archive),
      searchVersion w archived blocks i b src out pieceName sizeFull (some n) = .ok (some (v, g)) → ¬ b.usize < fullSize b blocks →
      w.full v ({ g with store := [srcName, n], solid := false }.arglist v) = .ok r → r.packed.length = fullSize b blocks →
      ∃ a, compressedFile w archived blocks i b src srcName out pieceName sizeFull (some n) false = .ok (v, a, r.packed)) ∧
    (∀ solid, compressedFile w archived blocks i b src srcName out pieceName sizeFull none solid = .error .other) ∧
    (∀ next, compressedFile w archived blocks i b src srcName out pieceName sizeFull next true = .error .other) := by
  refine ⟨?_, ?_, ?_⟩
  · intro n v g r h2 hu hr hl
    unfold compressedFile searchAgain sourceFiles
    rw [h]
    simp only [ok_bind, h2, if_neg hu, Option.isNone_none, Bool.or_true, if_true, Option.toList, hr]
    rw [if_neg (by omega)]
    exact ⟨_, rfl⟩
  · intro solid
    unfold compressedFile searchAgain
    rw [h]
    cases solid <;> rfl
  · intro next
    unfold compressedFile searchAgain
    rw [h]
    cases next <;> rfl

/-! ### A small world -/

/-- RAR 3.00, without threads. -/
def exRar300 : RarVersion := ⟨str "2002-05-14_rar300", 3, 0, false, true⟩
/-- RAR 4.20. -/
def exRar420 : RarVersion := ⟨str "2012-06-09_rar420", 4, 20, true, false⟩

/-- A file block: the whole of 6 bytes in 3. -/
def exPart : PackedPart := ⟨str "a.idx", 0x8000, 0x33, 0x12345678, 3, 6⟩
def exDir : PackedPart := ⟨str "dir", 0x80E0, 0x30, 0, 0, 0⟩

def exGood : Archive := ⟨[1, 2, 3], [(0x12345678, 3)]⟩
def exBad : Archive := ⟨[1, 2, 3, 4], [(0x87654321, 4)]⟩

/-- A world where the archive comes out right for one executable and only when the command line
ends in a given way. -/
def exWorld (good : RarVersion) (ends : List Str) : RarWorld :=
  { settings := {}, repo := [exRar300, exRar420],
    run := fun _ v c => .ok (if v = good ∧ ends.isSuffixOf c then exGood else exBad),
    full := fun v _ => .ok (if v = good then exGood else exBad) }

example : Searchable (exWorld exRar300 []) [] [exPart] 0 exPart (str "-m3") := by
  refine ⟨by decide, by decide, by decide, by decide +kernel, ?_, ⟨none, rfl⟩⟩
  intro p v c
  refine ⟨_, rfl, ?_⟩
  split <;> decide

set_option maxRecDepth 100000 in
example : (searchVersion (exWorld exRar300 []) [] [exPart] 0 exPart [1, 2, 3, 4, 5, 6] (str "o.rar") (str "p.idx") 6 none).map
    (·.map (·.1)) = .ok (some exRar300) := by decide +kernel

set_option maxRecDepth 100000 in
/-- C87: a file that needs the one behind it and another executable than the first is not found,
although one of the repository makes it. -/
theorem more_not_found :
    (exWorld exRar300 [str "next"]).run [1, 2, 3, 4, 5, 6] exRar300
      (command exRar300 (str "-m3") (str "-mdA") false none 0 (str "o.rar") [str "p.idx", str "next"]) = .ok exGood ∧
    Begins 3 0x12345678 exGood ∧
    searchVersion (exWorld exRar300 [str "next"]) [] [exPart] 0 exPart [1, 2, 3, 4, 5, 6] (str "o.rar") (str "p.idx") 6
      (some (str "next")) = .ok none := by
  refine ⟨by decide +kernel, .inr ⟨rfl, .inl ⟨3, [], rfl⟩⟩, by decide +kernel⟩

set_option maxRecDepth 100000 in
/-- C87: a file before this one that is not among the known ones, a directory for instance, ends
the search with an error although the next executable is the right one. -/
theorem unknown_before_stops :
    (searchVersion (exWorld exRar300 []) [] [exDir, exPart] 1 exPart [1, 2, 3, 4, 5, 6] (str "o.rar") (str "p.idx") 6 none).map
      (·.map (·.1)) = .ok (some exRar300) ∧
    searchVersion (exWorld exRar300 []) [(str "b.idx", (str "b.idx", exRar420))] [exDir, exPart] 1 exPart [1, 2, 3, 4, 5, 6]
      (str "o.rar") (str "p.idx") 6 none = .error .keyError := by
  refine ⟨by decide +kernel, by decide +kernel⟩

example : (compressedFile (exWorld exRar300 []) [] [exPart] 0 exPart [1, 2, 3, 4, 5, 6] (str "a.idx") (str "o.rar") (str "p.idx") 6
    none false).map (·.2.2) = .ok [1, 2, 3] := by decide +kernel

end Rescene.Props
