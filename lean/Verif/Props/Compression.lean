import Verif.Model.Compression
import Verif.Lemmas.Bytes
/-
C45, C46, C47, C50, C51, C55: time stamps and compression parameters of file blocks, and
what is tried to reproduce compressed archives.
-/
namespace Rescene.Props

/-! ### C46 -/

/-- C46: the fields of a DOS time are in range, and together they are the time stamp. -/
theorem dos_time (t : Nat) (ht : t < 2 ^ 32) :
    ∃ yr mon day hr mnt sec, parseDosTime t = (yr, mon, day, hr, mnt, sec) ∧
      1980 ≤ yr ∧ yr ≤ 2107 ∧ mon ≤ 15 ∧ day ≤ 31 ∧ hr ≤ 31 ∧ mnt ≤ 63 ∧ sec ≤ 62 ∧ sec % 2 = 0 ∧
      t = (yr - 1980) * 2 ^ 25 + mon * 2 ^ 21 + day * 2 ^ 16 + hr * 2 ^ 11 + mnt * 2 ^ 5 + sec / 2 := by
  refine ⟨_, _, _, _, _, _, rfl, ?_⟩
  simp only [show (0x1F : Nat) = 2 ^ 5 - 1 from rfl, show (0x3F : Nat) = 2 ^ 6 - 1 from rfl,
    show (0x0F : Nat) = 2 ^ 4 - 1 from rfl, show (0x7F : Nat) = 2 ^ 7 - 1 from rfl,
    Nat.and_two_pow_sub_one_eq_mod, Nat.shiftRight_eq_div_pow]
  omega

/-- C46: every date and time between 1980 and 2107 with even seconds has a DOS time. -/
theorem dos_time_complete (yr mon day hr mnt sec : Nat) (h1 : 1980 ≤ yr) (h2 : yr ≤ 2107) (h3 : mon ≤ 15)
    (h4 : day ≤ 31) (h5 : hr ≤ 31) (h6 : mnt ≤ 63) (h7 : sec ≤ 62) (h8 : sec % 2 = 0) :
    parseDosTime ((yr - 1980) * 2 ^ 25 + mon * 2 ^ 21 + day * 2 ^ 16 + hr * 2 ^ 11 + mnt * 2 ^ 5 + sec / 2) =
      (yr, mon, day, hr, mnt, sec) := by
  unfold parseDosTime
  simp only [show (0x1F : Nat) = 2 ^ 5 - 1 from rfl, show (0x3F : Nat) = 2 ^ 6 - 1 from rfl,
    show (0x0F : Nat) = 2 ^ 4 - 1 from rfl, show (0x7F : Nat) = 2 ^ 7 - 1 from rfl,
    Nat.and_two_pow_sub_one_eq_mod, Nat.shiftRight_eq_div_pow, Prod.mk.injEq]
  omega

example : parseDosTime 0x3AEB8C6F = (2009, 7, 11, 17, 35, 30) := by decide

/-! ### C47 -/

theorem and_byte (f m : Nat) (hm : m < 256) : f &&& m = (f % 256) &&& m := by
  apply Nat.eq_of_testBit_eq
  intro i
  rw [Nat.testBit_and, Nat.testBit_and, show 256 = 2 ^ 8 from rfl, Nat.testBit_mod_two_pow]
  by_cases hi : i < 8
  · simp [hi]
  · have : m.testBit i = false := Nat.testBit_lt_two_pow (Nat.lt_of_lt_of_le hm
      (Nat.le_trans (by decide : 256 ≤ 2 ^ 8) (Nat.pow_le_pow_right (by omega) (by omega))))
    simp [this]

theorem dict_table : ∀ f : Fin 256,
    (f.val / 32 < 7 → dictParameter f = str "-md" ++ ['A'.toNat + f.val / 32] ∧ dictSize f = some (2 ^ (16 + f.val / 32))) ∧
    (f.val / 32 = 7 → dictParameter f = str "-mdG" ∧ dictSize f = some (2 ^ 22)) ∧ dictionaryIndex f = f.val / 32 := by
  decide +kernel

theorem dict_mod (flags : Nat) : dictParameter flags = dictParameter (flags % 256) ∧ dictSize flags = dictSize (flags % 256) ∧
    dictionaryIndex flags = dictionaryIndex (flags % 256) := by
  unfold dictParameter dictSize dictionaryIndex
  rw [and_byte flags 0xC0 (by omega), and_byte flags 0xA0 (by omega), and_byte flags 0x80 (by omega),
    and_byte flags 0x60 (by omega), and_byte flags 0x40 (by omega), and_byte flags 0x20 (by omega),
    and_byte flags 0x00 (by omega), and_byte flags 0xE0 (by omega)]
  exact ⟨rfl, rfl, rfl⟩

/-- C47, as far as it holds: bits 5 to 7 of the flags are a number `d`; for files, where `d`
is below 7, the parameter is the letter A to G with that number and the dictionary has
`64 KiB * 2 ^ d`.  For directories (`d = 7`) see `dict_directory`. -/
theorem dict_of_flags_partial (flags : Nat) (hd : flags / 32 % 8 < 7) :
    dictParameter flags = str "-md" ++ ['A'.toNat + flags / 32 % 8] ∧
    dictSize flags = some (64 * 1024 * 2 ^ (flags / 32 % 8)) ∧ dictionaryIndex flags = flags / 32 % 8 := by
  obtain ⟨h1, h2, h3⟩ := dict_mod flags
  have h := dict_table ⟨flags % 256, by omega⟩
  simp only at h
  have hm : flags % 256 / 32 = flags / 32 % 8 := by omega
  rw [hm] at h
  rw [h1, h2, h3]
  refine ⟨(h.1 hd).1, ?_, h.2.2⟩
  rw [(h.1 hd).2, Nat.pow_add]

/-- C47: a directory has no dictionary, but gets the parameter and size of the largest one. -/
theorem dict_directory (flags : Nat) (hd : flags / 32 % 8 = 7) :
    dictParameter flags = str "-mdG" ∧ dictSize flags = some (4096 * 1024) ∧ dictionaryIndex flags = 7 := by
  obtain ⟨h1, h2, h3⟩ := dict_mod flags
  have h := dict_table ⟨flags % 256, by omega⟩
  simp only at h
  have hm : flags % 256 / 32 = flags / 32 % 8 := by omega
  rw [hm] at h
  rw [h1, h2, h3]
  exact ⟨(h.2.1 hd).1, (h.2.1 hd).2, h.2.2.trans hd⟩

/-- C47: for files, the parameter determines the bits. -/
theorem dict_injective (f g : Nat) (hf : f / 32 % 8 < 7) (hg : g / 32 % 8 < 7) (h : dictParameter f = dictParameter g) :
    f / 32 % 8 = g / 32 % 8 := by
  rw [(dict_of_flags_partial f hf).1, (dict_of_flags_partial g hg).1] at h
  simp at h
  exact h

/-- C47: the compression parameter is the digit of the method, 0x30 to 0x35; others are refused. -/
theorem compression_parameter (m : Nat) :
    (∀ k, k ≤ 5 → m = 0x30 + k → compressionParameter m = .ok (str "-m" ++ ['0'.toNat + k])) ∧
    (m < 0x30 ∨ 0x35 < m → compressionParameter m = .error .keyError) := by
  constructor
  · rintro k hk rfl
    have : k = 0 ∨ k = 1 ∨ k = 2 ∨ k = 3 ∨ k = 4 ∨ k = 5 := by omega
    rcases this with rfl | rfl | rfl | rfl | rfl | rfl <;> rfl
  · intro h
    unfold compressionParameter
    rw [if_neg (by omega), if_neg (by omega), if_neg (by omega), if_neg (by omega), if_neg (by omega), if_neg (by omega)]

/-! ### C45 -/

/-- The smallest and largest number of threads to try, given the user's limits and what the
version of RAR supports. -/
def lowest (s : MtSettings) (major minor : Nat) : Int :=
  if s.mtMin > 0 then s.mtMin else if major < 4 ∨ (major = 4 ∧ minor < 20) then 0 else 1
def highest (s : MtSettings) (major minor : Nat) : Int :=
  let most : Int := if major < 4 ∨ (major = 4 ∧ minor < 20) then 16 else 32
  if s.mtMax > 0 ∧ s.mtMax < most then s.mtMax else most

/-- `a`, `a + 1`, ... `n` numbers. -/
def upFrom (a : Int) : Nat → List Int
  | 0 => []
  | n + 1 => a :: upFrom (a + 1) n

theorem highest_cmp (s : MtSettings) (major minor : Nat) (c : Int) :
    (c < maxThreads major minor ∧ c < (if s.mtMax > 0 then s.mtMax else maxThreads major minor)) ↔ c < highest s major minor := by
  unfold highest maxThreads
  split <;> split <;> simp only [] <;> split <;> omega

theorem highest_cmp' (s : MtSettings) (major minor : Nat) (c : Int) :
    (c ≤ (if s.mtMax > 0 then s.mtMax else maxThreads major minor) ∧ c ≤ maxThreads major minor) ↔ c ≤ highest s major minor := by
  unfold highest maxThreads
  split <;> split <;> simp only [] <;> split <;> omega

theorem increase_some (s : MtSettings) (hs : s.mtSet = []) (major minor : Nat) (c : Int) :
    increaseThreads s major minor (some c) = if c < highest s major minor then some (c + 1) else none := by
  unfold increaseThreads
  simp only [hs, ne_eq, not_true_eq_false, if_false]
  by_cases h : c < highest s major minor
  · rw [if_pos ((highest_cmp s major minor c).mpr h), if_pos h]
  · rw [if_neg (fun h' => h ((highest_cmp s major minor c).mp h')), if_neg h]

theorem tried_from (s : MtSettings) (hs : s.mtSet = []) (major minor : Nat) : ∀ (k : Nat) (c : Int) (fuel : Nat), k < fuel →
    highest s major minor = c + k → threadsTried s major minor fuel (some c) = .ok (upFrom (c + 1) k) := by
  intro k
  induction k with
  | zero =>
    intro c fuel hf hh
    obtain ⟨fuel, rfl⟩ : ∃ n, fuel = n + 1 := ⟨fuel - 1, by omega⟩
    rw [threadsTried, increase_some s hs, if_neg (by omega)]
    rfl
  | succ k ih =>
    intro c fuel hf hh
    obtain ⟨fuel, rfl⟩ : ∃ n, fuel = n + 1 := ⟨fuel - 1, by omega⟩
    rw [threadsTried, increase_some s hs, if_pos (by omega)]
    simp only
    rw [ih (c + 1) fuel (by omega) (by omega)]
    rfl

/-- C45: without a list of thread counts, every count from the lowest to the highest is
tried once, in order, and then it stops. -/
theorem threads_range (s : MtSettings) (hs : s.mtSet = []) (major minor : Nat)
    (h : lowest s major minor ≤ highest s major minor) (fuel : Nat)
    (hf : (highest s major minor - lowest s major minor).toNat + 2 ≤ fuel) :
    threadsTried s major minor fuel none =
      .ok (upFrom (lowest s major minor) ((highest s major minor - lowest s major minor).toNat + 1)) := by
  obtain ⟨fuel, rfl⟩ : ∃ n, fuel = n + 1 := ⟨fuel - 1, by omega⟩
  have hm : highest s major minor ≤ maxThreads major minor := by
    unfold highest maxThreads; simp only []; split <;> omega
  have hi : increaseThreads s major minor none = some (lowest s major minor) := by
    unfold increaseThreads
    simp only [hs, ne_eq, not_true_eq_false, if_false]
    have hl : (if s.mtMin > 0 then s.mtMin else minThreads major minor) = lowest s major minor := rfl
    rw [hl, if_pos (by omega)]
  rw [threadsTried, hi]
  simp only
  rw [tried_from s hs major minor (highest s major minor - lowest s major minor).toNat _ fuel (by omega) (by omega)]
  rfl

theorem mem_upFrom {a x : Int} {n : Nat} : x ∈ upFrom a n ↔ a ≤ x ∧ x < a + n := by
  induction n generalizing a with
  | zero => simp [upFrom]
  | succ n ih => rw [upFrom, List.mem_cons, ih]; omega

/-- What `threads_range` lists: exactly the numbers in between. -/
theorem threads_range_mem (s : MtSettings) (major minor : Nat) (h : lowest s major minor ≤ highest s major minor) (x : Int) :
    x ∈ upFrom (lowest s major minor) ((highest s major minor - lowest s major minor).toNat + 1) ↔
      lowest s major minor ≤ x ∧ x ≤ highest s major minor := by
  rw [mem_upFrom]; omega

theorem set_step (s : MtSettings) (hs : s.mtSet ≠ []) (major minor : Nat) (c : Int) :
    increaseThreads s major minor (some c) =
      (s.mtSet.filter fun x => lowest s major minor ≤ x && x ≤ highest s major minor).find? (fun x => decide (x > c)) := by
  unfold increaseThreads
  simp only [hs, ne_eq, not_false_eq_true, if_true]
  rw [List.find?_filter]
  congr 1
  funext x
  have h := highest_cmp' s major minor x
  have hl : (if s.mtMin > 0 then s.mtMin else minThreads major minor) = lowest s major minor := rfl
  rw [hl]
  rw [Bool.eq_iff_iff]
  simp only [Bool.and_eq_true, decide_eq_true_eq]
  rw [← h]
  simp only [and_assoc]

theorem set_first (s : MtSettings) (hs : s.mtSet ≠ []) (major minor : Nat) :
    increaseThreads s major minor none =
      (s.mtSet.filter fun x => lowest s major minor ≤ x && x ≤ highest s major minor).head? := by
  unfold increaseThreads
  simp only [hs, ne_eq, not_false_eq_true, if_true]
  rw [List.head?_filter]
  congr 1
  funext x
  have h := highest_cmp' s major minor x
  have hl : (if s.mtMin > 0 then s.mtMin else minThreads major minor) = lowest s major minor := rfl
  rw [hl]
  rw [Bool.eq_iff_iff]
  simp only [Bool.and_eq_true, decide_eq_true_eq]
  rw [← h]
  simp only [and_assoc]

theorem sorted_find {l l' : List Int} {c : Int} (hl : (l ++ c :: l').Pairwise (· < ·)) :
    (l ++ c :: l').find? (fun x => decide (x > c)) = l'.head? := by
  rw [List.pairwise_append] at hl
  obtain ⟨_, h2, h3⟩ := hl
  rw [List.find?_append]
  have hn : l.find? (fun x => decide (x > c)) = none := by
    rw [List.find?_eq_none]
    intro x hx
    have := h3 x hx c (by simp)
    simp; omega
  rw [hn, Option.none_or, List.find?_cons]
  simp only [gt_iff_lt, Int.lt_irrefl, decide_false]
  cases l' with
  | nil => rfl
  | cons d t =>
    have := (List.pairwise_cons.mp h2).1 d (by simp)
    simp [List.find?_cons, this]

theorem set_from (s : MtSettings) (hs : s.mtSet ≠ []) (major minor : Nat) : ∀ (l' l : List Int) (c : Int) (fuel : Nat),
    l'.length < fuel → (l ++ c :: l').Pairwise (· < ·) →
    (s.mtSet.filter fun x => lowest s major minor ≤ x && x ≤ highest s major minor) = l ++ c :: l' →
    threadsTried s major minor fuel (some c) = .ok l' := by
  intro l'
  induction l' with
  | nil =>
    intro l c fuel hf hp hl
    obtain ⟨fuel, rfl⟩ : ∃ n, fuel = n + 1 := ⟨fuel - 1, by omega⟩
    rw [threadsTried, set_step s hs, hl, sorted_find hp]
    rfl
  | cons d t ih =>
    intro l c fuel hf hp hl
    obtain ⟨fuel, rfl⟩ : ∃ n, fuel = n + 1 := ⟨fuel - 1, by omega⟩
    rw [threadsTried, set_step s hs, hl, sorted_find hp]
    simp only [List.head?_cons]
    rw [ih (l ++ [c]) d fuel (by simp at hf; omega) (by simpa using hp) (by simpa using hl)]
    rfl

/-- C45, as far as it holds: from a list of thread counts in increasing order, every count
in the range is tried once.  Without that order some are left out: `threads_set_skips`. -/
theorem threads_set_partial (s : MtSettings) (hs : s.mtSet ≠ []) (hp : s.mtSet.Pairwise (· < ·)) (major minor fuel : Nat)
    (hf : s.mtSet.length < fuel) :
    threadsTried s major minor fuel none =
      .ok (s.mtSet.filter fun x => lowest s major minor ≤ x && x ≤ highest s major minor) := by
  have hlen := List.length_filter_le (fun x => decide (lowest s major minor ≤ x) && decide (x ≤ highest s major minor)) s.mtSet
  obtain ⟨fuel, rfl⟩ : ∃ n, fuel = n + 1 := ⟨fuel - 1, by omega⟩
  rw [threadsTried, set_first s hs]
  cases hl : (s.mtSet.filter fun x => lowest s major minor ≤ x && x ≤ highest s major minor) with
  | nil => rfl
  | cons c t =>
    simp only [List.head?_cons]
    rw [set_from s hs major minor t [] c fuel (by rw [hl] at hlen; simp at hlen; omega)
      (by have := hp.filter (fun x => decide (lowest s major minor ≤ x) && decide (x ≤ highest s major minor)); rw [hl] at this; exact this)
      hl]
    rfl

/-- C45: a list in another order is not tried in full: `--mt-set 8,4` never tries 4. -/
theorem threads_set_skips : threadsTried { mtSet := [8, 4] } 4 20 3 none = .ok [8] := by decide

/-- C45: `--mt-min` above `--mt-max`: the minimum is tried once all the same. -/
theorem threads_min_above_max : threadsTried { mtMin := 8, mtMax := 4 } 4 20 3 none = .ok [8] := by decide

/-- C45: with any settings, it always stops: the counts that are tried increase strictly and
none is above 32. -/
theorem threads_stop (s : MtSettings) (major minor : Nat) :
    ∃ l fuel, threadsTried s major minor fuel none = .ok l ∧ l.Pairwise (· < ·) ∧ ∀ x ∈ l, x ≤ 32 := by
  have h32 : maxThreads major minor ≤ 32 := by unfold maxThreads; split <;> omega
  have hb : ∀ cur x, increaseThreads s major minor cur = some x → x ≤ 32 := by
    intro cur x h
    unfold increaseThreads at h
    dsimp only at h
    generalize (if s.mtMin > 0 then s.mtMin else minThreads major minor) = lo at h
    generalize (if s.mtMax > 0 then s.mtMax else maxThreads major minor) = hi at h
    split at h
    · split at h
      · have := List.find?_some h
        simp only [Bool.and_eq_true, decide_eq_true_eq] at this
        omega
      · split at h
        · simp only [Option.some.injEq] at h; omega
        · simp at h
    · split at h
      · have := List.find?_some h
        simp only [Bool.and_eq_true, decide_eq_true_eq] at this
        omega
      · split at h
        · simp only [Option.some.injEq] at h; omega
        · simp at h
  have hlt : ∀ c x, increaseThreads s major minor (some c) = some x → c < x := by
    intro c x h
    unfold increaseThreads at h
    dsimp only at h
    generalize (if s.mtMin > 0 then s.mtMin else minThreads major minor) = lo at h
    generalize (if s.mtMax > 0 then s.mtMax else maxThreads major minor) = hi at h
    split at h
    · have := List.find?_some h
      simp only [Bool.and_eq_true, decide_eq_true_eq] at this
      omega
    · split at h
      · simp only [Option.some.injEq] at h; omega
      · simp at h
  have key : ∀ (k : Nat) (c : Int), 32 - c ≤ k → ∃ l fuel, threadsTried s major minor fuel (some c) = .ok l ∧
      (c :: l).Pairwise (· < ·) ∧ ∀ x ∈ l, x ≤ 32 := by
    intro k
    induction k with
    | zero =>
      intro c hc
      refine ⟨[], 1, ?_, by simp, by simp⟩
      rw [threadsTried]
      cases h : increaseThreads s major minor (some c) with
      | none => rfl
      | some x => have := hb _ _ h; have := hlt _ _ h; omega
    | succ k ih =>
      intro c hc
      cases h : increaseThreads s major minor (some c) with
      | none => exact ⟨[], 1, by rw [threadsTried, h], by simp, by simp⟩
      | some x =>
        have h1 := hb _ _ h
        have h2 := hlt _ _ h
        obtain ⟨l, fuel, e, p, b⟩ := ih x (by omega)
        refine ⟨x :: l, fuel + 1, by rw [threadsTried, h]; simp only [e]; rfl, ?_, ?_⟩
        · rw [List.pairwise_cons]
          refine ⟨?_, p⟩
          intro y hy
          rcases List.mem_cons.mp hy with rfl | hy
          · exact h2
          · have := (List.pairwise_cons.mp p).1 y hy; omega
        · intro y hy
          rcases List.mem_cons.mp hy with rfl | hy
          · exact h1
          · exact b y hy
  cases h : increaseThreads s major minor none with
  | none => exact ⟨[], 1, by rw [threadsTried, h], by simp, by simp⟩
  | some x =>
    obtain ⟨l, fuel, e, p, b⟩ := key (32 - x).toNat x (by omega)
    refine ⟨x :: l, fuel + 1, by rw [threadsTried, h]; simp only [e]; rfl, p, ?_⟩
    intro y hy
    rcases List.mem_cons.mp hy with rfl | hy
    · exact hb _ _ h
    · exact b y hy

/-- Met by the default settings: 0 to 16 for RAR 3.93, 1 to 32 for 4.20. -/
example : threadsTried {} 3 93 40 none = .ok (upFrom 0 17) ∧ threadsTried {} 4 20 40 none = .ok (upFrom 1 32) := by decide
example : threadsTried { mtSet := [1, 2, 4, 6, 8, 12, 16, 24, 32], mtMax := 8 } 4 20 10 none = .ok [1, 2, 4, 6, 8] := by decide

/-! ### C55 -/

/-- C55: every executable of the repository is tried, each once; the one that fitted an
earlier file comes first. -/
theorem executables_all {α : Type} (older : α → Bool) (previous l : List α) :
    ∃ r, rarExecutables older previous l = previous ++ r ∧ r.Perm l := by
  have hp : (l.filter older ++ l.filter (fun x => !older x)).Perm l := List.filter_append_perm older l
  unfold rarExecutables
  simp only
  split
  · rename_i h
    refine ⟨_, rfl, ?_⟩
    rw [h, List.append_nil] at hp
    exact (List.reverse_perm _).trans hp
  · rename_i a t h
    refine ⟨[a] ++ ((l.filter older).reverse ++ t), by simp, ?_⟩
    rw [h] at hp
    refine List.Perm.trans ?_ hp
    refine List.Perm.trans ?_ (List.perm_middle (l₁ := l.filter older)).symm
    exact List.Perm.cons _ ((List.reverse_perm _).append_right _)

/-- C55: the order is: the oldest executable that is not older than the archive, then those
that are older, the newest first, then the newer ones. -/
theorem executables_order {α : Type} (older : α → Bool) (old new : List α) (a : α)
    (ho : ∀ x ∈ old, older x = true) (hn : ∀ x ∈ a :: new, older x = false) :
    rarExecutables older [] (old ++ a :: new) = a :: (old.reverse ++ new) := by
  have h1 : (old ++ a :: new).filter older = old := by
    rw [List.filter_append, List.filter_eq_self.mpr ho, List.filter_eq_nil_iff.mpr (by intro x hx; simp [hn x hx])]
    simp
  have h2 : (old ++ a :: new).filter (fun x => !older x) = a :: new := by
    rw [List.filter_append, List.filter_eq_nil_iff.mpr (by intro x hx; simp [ho x hx]),
      List.filter_eq_self.mpr (by intro x hx; simp [hn x hx])]
    rfl
  unfold rarExecutables
  simp only [h1, h2]
  simp

example : rarExecutables (fun d : Nat => d < 2006) [] [2000, 2004, 2006, 2008] = [2006, 2004, 2000, 2008] := by decide

/-! ### C51 -/

theorem fullPacked_parts (name : Str) (parts : List Nat) (post : List (Str × Nat)) : ∀ size,
    fullPackedSize name size (parts.map (fun p => (name, p)) ++ post) = fullPackedSize name (size + parts.sum) post := by
  induction parts with
  | nil => intro size; rfl
  | cons p parts ih =>
    intro size
    rw [List.map_cons, List.cons_append, fullPackedSize, if_pos rfl, ih, List.sum_cons, Nat.add_assoc]

/-- C51: the full packed size of a file whose parts follow each other is the sum of the
sizes of its parts, whatever files surround it. -/
theorem full_packed_size (name : Str) (parts : List Nat) (pre post : List (Str × Nat))
    (h1 : ∀ x ∈ pre, x.1 ≠ name) (h2 : ∀ x ∈ post, x.1 ≠ name) :
    fullPackedSize name 0 (pre ++ (parts.map (fun p => (name, p)) ++ post)) = parts.sum := by
  have hpre : ∀ (pre l : List (Str × Nat)), (∀ x ∈ pre, x.1 ≠ name) → fullPackedSize name 0 (pre ++ l) = fullPackedSize name 0 l := by
    intro pre
    induction pre with
    | nil => intro l _; rfl
    | cons x pre ih =>
      intro l h
      obtain ⟨n, p⟩ := x
      rw [List.cons_append, fullPackedSize, if_neg (h (n, p) (by simp)), if_neg (by simp)]
      exact ih l (fun y hy => h y (by simp [hy]))
  have hpost : ∀ (post : List (Str × Nat)) (size : Nat), (∀ x ∈ post, x.1 ≠ name) → fullPackedSize name size post = size := by
    intro post
    induction post with
    | nil => intro size _; rfl
    | cons x post ih =>
      intro size h
      obtain ⟨n, p⟩ := x
      rw [fullPackedSize, if_neg (h (n, p) (by simp))]
      split
      · rfl
      · exact ih size (fun y hy => h y (by simp [hy]))
  rw [hpre pre _ h1, fullPacked_parts, Nat.zero_add, hpost post _ h2]

example : fullPackedSize (str "b") 0 [(str "a", 5), (str "b", 7), (str "b", 3), (str "c", 9)] = 10 := by decide

/-- Blocks that only the SRR has: its header, stored files, the names of the volumes, OSO hashes. -/
def SrrOnly (b : Block) : Prop := b.btype = 0x69 ∨ b.btype = 0x6A ∨ b.btype = 0x71 ∨ b.btype = 0x6B

instance (b : Block) : Decidable (SrrOnly b) := by unfold SrrOnly; infer_instance

/-- How many bytes of the volume a block stands for. -/
def bytesOf (b : Block) : Nat :=
  if SrrOnly b then 0 else if b.btype = 0x6C then b.addSize else b.hsize + b.addSize

theorem volumeSize_mid (body rest : List Block) : ∀ size, size ≠ 0 ∨ (∀ b ∈ body, b.btype ≠ 0x72) →
    (∀ b ∈ body, b.btype ≠ 0x72 ∧ b.btype ≠ 0x7B) →
    volumeSize size (body ++ rest) = volumeSize (size + (body.map bytesOf).sum) rest := by
  induction body with
  | nil => intro size _ _; rfl
  | cons b body ih =>
    intro size h0 hb
    have hb1 := hb b (by simp)
    have hrest : ∀ x ∈ body, x.btype ≠ 0x72 ∧ x.btype ≠ 0x7B := fun x hx => hb x (by simp [hx])
    have ih' : ∀ size, volumeSize size (body ++ rest) = volumeSize (size + (body.map bytesOf).sum) rest :=
      fun size => ih size (Or.inr fun x hx => (hrest x hx).1) hrest
    rw [List.cons_append, volumeSize, if_neg (fun h => hb1.1 h.1), if_neg hb1.2, List.map_cons, List.sum_cons]
    have hbo : bytesOf b = if SrrOnly b then 0 else if b.btype = 0x6C then b.addSize else b.hsize + b.addSize := rfl
    rw [hbo]
    by_cases h1 : SrrOnly b
    · have h1' : b.btype = 0x69 ∨ b.btype = 0x6A ∨ b.btype = 0x71 ∨ b.btype = 0x6B := h1
      rw [if_pos h1, if_pos h1', ih', Nat.zero_add]
    · have h1' : ¬ (b.btype = 0x69 ∨ b.btype = 0x6A ∨ b.btype = 0x71 ∨ b.btype = 0x6B) := h1
      rw [if_neg h1', if_neg h1]
      by_cases h2 : b.btype = 0x6C
      · rw [if_pos h2, if_pos h2, ih', Nat.add_assoc]
      · rw [if_neg h2, if_neg h2, ih']
        rw [show size + b.hsize + b.addSize + (body.map bytesOf).sum = size + (b.hsize + b.addSize + (body.map bytesOf).sum) by omega]

/-- C51: the calculated volume size is the size of the first volume: from its marker block to
its archive end block, or to the marker of the next volume or the end of the SRR when
there is none. -/
theorem first_volume_size (front body rest : List Block) (marker : Block) (hm : marker.btype = 0x72) (hz : marker.hsize ≠ 0)
    (hf : ∀ b ∈ front, SrrOnly b) (hb : ∀ b ∈ body, b.btype ≠ 0x72 ∧ b.btype ≠ 0x7B)
    (hr : rest = [] ∨ ∃ b t, rest = b :: t ∧ (b.btype = 0x72 ∨ b.btype = 0x7B)) :
    volumeSize 0 (front ++ (marker :: body ++ rest)) =
      marker.hsize + marker.addSize + (body.map bytesOf).sum +
        (match rest with | b :: _ => if b.btype = 0x7B then b.hsize else 0 | [] => 0) := by
  have h1 : ∀ l, volumeSize 0 (front ++ l) = volumeSize 0 l := by
    intro l
    induction front with
    | nil => rfl
    | cons b front ih =>
      have hb := hf b (by simp)
      have hb' : b.btype = 0x69 ∨ b.btype = 0x6A ∨ b.btype = 0x71 ∨ b.btype = 0x6B := hb
      rw [List.cons_append, volumeSize, if_neg (by simp), if_neg (by omega), if_pos hb']
      exact ih (fun x hx => hf x (by simp [hx]))
  rw [h1, List.cons_append, volumeSize, if_neg (by simp), if_neg (by omega), if_neg (by omega), if_neg (by omega),
    volumeSize_mid body rest _ (Or.inl (by omega)) hb]
  rcases hr with rfl | ⟨b, t, rfl, hbt⟩
  · rw [volumeSize]; simp only; omega
  · rw [volumeSize]
    simp only
    rcases hbt with hbt | hbt
    · rw [if_pos ⟨hbt, by omega⟩, if_neg (by omega)]; omega
    · rw [if_neg (by omega), if_pos hbt, if_pos hbt]; omega

/-- C51: padding behind the archive end block is part of the volume, but it is not counted. -/
theorem volume_size_padding (a e p : Block) (ha : a.btype = 0x72) (he : e.btype = 0x7B) (hs : a.hsize = 7) (hz : a.addSize = 0) :
    volumeSize 0 [a, e, p] = 7 + e.hsize := by
  rw [volumeSize, if_neg (by simp), if_neg (by omega), if_neg (by omega), if_neg (by omega), volumeSize,
    if_neg (by omega), if_pos he]
  omega

/-! ### C50 -/

/-- C50: with `retries` retries at most `retries + 3` attempts are made.  If the first that
does not fail with a transient error is one of them, its outcome is the outcome. -/
theorem usenet_first_good {β : Type} (caught : Err → Bool) (init : Nat → Res Unit) (attempt : Nat → Res β) (retries k : Nat)
    (hi : ∀ n, init n = .ok ()) (hk : k ≤ retries + 2)
    (hf : ∀ n, n < k → ∃ e, attempt n = .error e ∧ caught e = true)
    (hg : ∀ e, attempt k = .error e → caught e = false) :
    rarreaderUsenet caught init attempt retries = attempt k := by
  have loop : ∀ m stop n fuel, m + n = k → n = stop + 1 → m + 1 ≤ fuel → m + stop ≤ retries + 1 →
      usenetLoop caught init attempt retries fuel stop n = attempt k := by
    intro m
    induction m with
    | zero =>
      intro stop n fuel h1 h2 h3 h4
      obtain ⟨fuel, rfl⟩ : ∃ x, fuel = x + 1 := ⟨fuel - 1, by omega⟩
      have : n = k := by omega
      subst this
      rw [usenetLoop]
      cases ha : attempt n with
      | ok b => rfl
      | error e => simp [hg e ha]
    | succ m ih =>
      intro stop n fuel h1 h2 h3 h4
      obtain ⟨fuel, rfl⟩ : ∃ x, fuel = x + 1 := ⟨fuel - 1, by omega⟩
      obtain ⟨e, he, hc⟩ := hf n (by omega)
      rw [usenetLoop, he]
      simp only [hc, if_true]
      rw [if_pos (by omega), hi, ok_bind]
      exact ih (stop + 1) (n + 1) fuel (by omega) (by omega) (by omega) (by omega)
  unfold rarreaderUsenet
  cases k with
  | zero =>
    cases ha : attempt 0 with
    | ok b => rfl
    | error e => simp [hg e ha]
  | succ k =>
    obtain ⟨e, he, hc⟩ := hf 0 (by omega)
    rw [he]
    simp only [hc, if_true]
    rw [hi, ok_bind]
    exact loop k 0 1 (retries + 3) (by omega) (by omega) (by omega) (by omega)

/-- C50: if all `retries + 3` attempts fail with transient errors, the last error is raised:
no further attempt is made. -/
theorem usenet_gives_up {β : Type} (caught : Err → Bool) (init : Nat → Res Unit) (attempt : Nat → Res β) (retries : Nat)
    (hi : ∀ n, init n = .ok ()) (hf : ∀ n, n ≤ retries + 2 → ∃ e, attempt n = .error e ∧ caught e = true) :
    rarreaderUsenet caught init attempt retries = attempt (retries + 2) := by
  have loop : ∀ m stop fuel, m + stop = retries + 1 → m + 1 ≤ fuel →
      usenetLoop caught init attempt retries fuel stop (stop + 1) = attempt (retries + 2) := by
    intro m
    induction m with
    | zero =>
      intro stop fuel h1 h3
      obtain ⟨fuel, rfl⟩ : ∃ x, fuel = x + 1 := ⟨fuel - 1, by omega⟩
      have : stop = retries + 1 := by omega
      subst this
      obtain ⟨e, he, hc⟩ := hf (retries + 2) (by omega)
      rw [usenetLoop, he]
      simp only [hc, if_true]
      rw [if_neg (by omega)]
    | succ m ih =>
      intro stop fuel h1 h3
      obtain ⟨fuel, rfl⟩ : ∃ x, fuel = x + 1 := ⟨fuel - 1, by omega⟩
      obtain ⟨e, he, hc⟩ := hf (stop + 1) (by omega)
      rw [usenetLoop, he]
      simp only [hc, if_true]
      rw [if_pos (by omega), hi, ok_bind]
      exact ih (stop + 1) fuel (by omega) (by omega)
  unfold rarreaderUsenet
  obtain ⟨e, he, hc⟩ := hf 0 (by omega)
  rw [he]
  simp only [hc, if_true]
  rw [hi, ok_bind]
  exact loop (retries + 1) 0 (retries + 3) (by omega) (by omega)

/-- C50: it always comes to an end, also when reconnecting fails, and what it returns is what
one of the first `retries + 3` attempts gave. -/
theorem usenet_result {β : Type} (caught : Err → Bool) (init : Nat → Res Unit) (attempt : Nat → Res β) (retries : Nat) (b : β)
    (h : rarreaderUsenet caught init attempt retries = .ok b) : ∃ k, k ≤ retries + 2 ∧ attempt k = .ok b := by
  have loop : ∀ fuel stop, stop ≤ retries + 1 → usenetLoop caught init attempt retries fuel stop (stop + 1) = .ok b →
      ∃ k, k ≤ retries + 2 ∧ attempt k = .ok b := by
    intro fuel
    induction fuel with
    | zero => intro stop _ h; rw [usenetLoop] at h; simp at h
    | succ fuel ih =>
      intro stop hs h
      rw [usenetLoop] at h
      cases ha : attempt (stop + 1) with
      | ok b' => rw [ha] at h; exact ⟨stop + 1, by omega, by rw [ha]; exact h⟩
      | error e =>
        rw [ha] at h
        simp only at h
        split at h
        · split at h
          · cases hi : init (stop + 1) with
            | error e' => rw [hi] at h; simp at h
            | ok u => rw [hi, ok_bind] at h; exact ih (stop + 1) (by omega) h
          · simp at h
        · simp at h
  unfold rarreaderUsenet at h
  cases ha : attempt 0 with
  | ok b' => rw [ha] at h; exact ⟨0, by omega, by rw [ha]; exact h⟩
  | error e =>
    rw [ha] at h
    simp only at h
    split at h
    · cases hi : init 0 with
      | error e' => rw [hi] at h; simp at h
      | ok u => rw [hi, ok_bind] at h; exact loop _ 0 (by omega) h
    · simp at h

/-- Two failures, then the data: the hypotheses can be met. -/
example : rarreaderUsenet (fun e => e = .envError) (fun _ => .ok ())
    (fun n => if n < 2 then .error .envError else .ok 5) 7 = .ok 5 := by decide

end Rescene.Props
