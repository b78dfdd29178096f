import Verif.Model.Glob
import Verif.Lemmas.Paths
/-
C44: names with special characters are found as they are.
-/
namespace Rescene.Props
open Rescene Rescene.Spec

/-- The pattern for one character. -/
def escChar (c : Nat) : Str :=
  if c = 0x5B then str "[[]"
  else if c = 0x5D then str "[]]"
  else if c = 0x2A then str "[*]"
  else if c = 0x3F then str "[?]"
  else [c]

theorem escapeGlob_cons (c : Nat) (s : Str) : escapeGlob (c :: s) = escChar c ++ escapeGlob s := rfl

theorem escapeGlob_append (a b : Str) : escapeGlob (a ++ b) = escapeGlob a ++ escapeGlob b := List.flatMap_append

/-- The four characters that are changed. -/
def special (c : Nat) : Bool := c == 0x5B || c == 0x5D || c == 0x2A || c == 0x3F

theorem escChar_special (c : Nat) (h : special c = true) : escChar c = [0x5B, c, 0x5D] := by
  simp only [special, Bool.or_eq_true, beq_iff_eq] at h
  rcases h with ((rfl | rfl) | rfl) | rfl <;> rfl

theorem escChar_plain (c : Nat) (h : special c = false) : escChar c = [c] := by
  simp only [special, Bool.or_eq_false_iff, beq_eq_false_iff_ne, ne_eq] at h
  unfold escChar
  rw [if_neg h.1.1.1, if_neg h.1.1.2, if_neg h.1.2, if_neg h.2]

theorem globClass_esc (c : Nat) (s : Str) (h : special c = true) : globClass (c :: 0x5D :: s) = some (false, [c], s) := by
  simp only [special, Bool.or_eq_true, beq_iff_eq] at h
  rcases h with ((rfl | rfl) | rfl) | rfl <;> simp [globClass, List.dropWhile_cons, List.takeWhile_cons]

/-- The pieces of an escaped name. -/
def escTok (c : Nat) : GlobTok := if special c then .cls false [c] else .lit c

theorem globToks_escape (s : Str) : ∀ fuel, (escapeGlob s).length ≤ fuel → globToks fuel (escapeGlob s) = s.map escTok := by
  induction s with
  | nil => intro fuel _; cases fuel <;> rfl
  | cons c s ih =>
    intro fuel hf
    rw [escapeGlob_cons] at hf ⊢
    by_cases h : special c = true
    · rw [escChar_special c h] at hf ⊢
      obtain ⟨fuel, rfl⟩ : ∃ k, fuel = k + 1 := ⟨fuel - 1, by simp at hf; omega⟩
      show globToks (fuel + 1) (0x5B :: c :: 0x5D :: escapeGlob s) = _
      rw [globToks, if_neg (by decide), if_neg (by decide), if_pos rfl, globClass_esc c _ h]
      simp only
      rw [ih fuel (by simp at hf; omega)]
      simp [escTok, h]
    · have h : special c = false := by simpa using h
      rw [escChar_plain c h] at hf ⊢
      obtain ⟨fuel, rfl⟩ : ∃ k, fuel = k + 1 := ⟨fuel - 1, by simp at hf; omega⟩
      show globToks (fuel + 1) (c :: escapeGlob s) = _
      have h' := h
      simp only [special, Bool.or_eq_false_iff, beq_eq_false_iff_ne, ne_eq] at h'
      rw [globToks, if_neg h'.1.2, if_neg h'.2, if_neg h'.1.1.1, ih fuel (by simp at hf; omega)]
      simp [escTok, h]

theorem globMatches_esc (s : Str) : ∀ name, globMatches (s.map escTok) name = true ↔ name = s := by
  induction s with
  | nil => intro name; simp [globMatches]
  | cons c s ih =>
    intro name
    rw [List.map_cons]
    have ht : escTok c = if special c then .cls false [c] else .lit c := rfl
    cases name with
    | nil =>
      rw [ht]
      split <;> simp [globMatches]
    | cons d name =>
      rw [ht]
      split
      · simp only [globMatches, inGlobClass, Bool.or_false, Bool.and_eq_true, bne_iff_ne, ih, List.cons.injEq]
        by_cases hcd : c = d
        · simp [hcd]
        · simp [hcd, Ne.symm hcd]
      · simp only [globMatches, Bool.and_eq_true, beq_iff_eq, ih, List.cons.injEq]
        constructor
        · rintro ⟨rfl, rfl⟩; exact ⟨rfl, rfl⟩
        · rintro ⟨rfl, rfl⟩; exact ⟨rfl, rfl⟩

theorem hasMagic_escape (s : Str) : (hasMagic (escapeGlob s) = false → escapeGlob s = s) ∧
    (hasMagic (escapeGlob s) = true → s ≠ []) := by
  constructor
  · induction s with
    | nil => intro _; rfl
    | cons c s ih =>
      intro h
      rw [escapeGlob_cons] at h ⊢
      have hsp : hasMagic (escChar c) = false ∧ hasMagic (escapeGlob s) = false := by
        simpa [hasMagic, List.any_append] using h
      rw [ih hsp.2]
      by_cases hc : special c = true
      · rw [escChar_special c hc] at hsp
        simp [hasMagic] at hsp
      · rw [escChar_plain c (by simpa using hc)]; rfl
  · rintro h rfl
    simp [escapeGlob, hasMagic] at h

theorem escape_head (s : Str) (k : Nat) (hk : special k = false) : (escapeGlob s).head? = some k ↔ s.head? = some k := by
  cases s with
  | nil => simp [escapeGlob]
  | cons c s =>
    rw [escapeGlob_cons]
    by_cases h : special c = true
    · rw [escChar_special c h]
      simp only [List.cons_append, List.head?_cons, Option.some.injEq]
      constructor
      · intro h5; subst h5; exact absurd hk (by decide)
      · rintro rfl; rw [hk] at h; simp at h
    · rw [escChar_plain c (by simpa using h)]; simp

/-- One element of a path: only the name itself is found. -/
theorem globElem_escape (name x : Str) : globElem (escapeGlob name) x = true ↔ x = name := by
  unfold globElem
  split
  · have hd := escape_head name 0x2E (by decide)
    unfold fnmatch
    rw [globToks_escape name _ (Nat.le_refl _), Bool.and_eq_true, globMatches_esc]
    constructor
    · exact fun h => h.2
    · rintro rfl
      refine ⟨?_, rfl⟩
      rw [Bool.or_eq_true, beq_iff_eq, hd]
      by_cases h : x.head? = some 0x2E
      · exact Or.inl h
      · right; simpa using h
  · rename_i h
    rw [(hasMagic_escape name).1 (by simpa using h)]
    simp

theorem splitOn_escape (s : Str) : splitOn 0x2F (escapeGlob s) = (splitOn 0x2F s).map escapeGlob := by
  have plain : ∀ (a b : Str), 0x2F ∉ a → ∀ h t, splitOn 0x2F b = h :: t → splitOn 0x2F (a ++ b) = (a ++ h) :: t := by
    intro a
    induction a with
    | nil => intro b _ h t hb; exact hb
    | cons c a ih =>
      intro b hc h t hb
      simp only [List.mem_cons, not_or] at hc
      rw [List.cons_append, splitOn, if_neg (Ne.symm hc.1), ih b hc.2 h t hb]
      rfl
  induction s with
  | nil => rfl
  | cons c s ih =>
    rw [escapeGlob_cons]
    by_cases hc : c = 0x2F
    · subst hc
      rw [escChar_plain 0x2F (by decide), List.singleton_append, splitOn, if_pos rfl, ih, splitOn, if_pos rfl]
      rfl
    · have hne := splitOn_ne_nil 0x2F s
      cases hs : splitOn 0x2F s with
      | nil => exact absurd hs hne
      | cons h t =>
        rw [hs] at ih
        have hmem : 0x2F ∉ escChar c := by
          by_cases hsp : special c = true
          · rw [escChar_special c hsp]; simp; exact fun h => hc h.symm
          · rw [escChar_plain c (by simpa using hsp)]; simp; exact fun h => hc h.symm
        rw [plain _ _ hmem _ _ ih, splitOn, if_neg hc, hs]
        rfl

theorem splitOn_inj (a b : Str) (h : splitOn 0x2F a = splitOn 0x2F b) : a = b := by
  have hj : ∀ s : Str, joinWith 0x2F (splitOn 0x2F s) = s := by
    intro s
    induction s with
    | nil => rfl
    | cons c s ih =>
      rw [splitOn]
      cases hs : splitOn 0x2F s with
      | nil => exact absurd hs (splitOn_ne_nil _ _)
      | cons h t =>
        rw [hs] at ih
        split
        · rename_i hc
          subst hc
          rw [joinWith]
          · rw [ih]; rfl
          · simp
        · simp only
          cases t with
          | nil => simp only [joinWith] at ih ⊢; rw [ih]
          | cons x t => simp only [joinWith, List.cons_append] at ih ⊢; rw [ih]
  rw [← hj a, h, hj b]

/-- C44: an escaped path finds that path and no other one, whatever characters are in it. -/
theorem glob_escape (path p : Str) : globPath (escapeGlob path) p = true ↔ p = path := by
  unfold globPath
  simp only [splitOn_escape, Bool.and_eq_true, beq_iff_eq, List.length_map]
  have key : ∀ (as bs : List Str), as.length = bs.length →
      (((as.map escapeGlob).zip bs).all (fun x => globElem x.1 x.2) = true ↔ bs = as) := by
    intro as
    induction as with
    | nil => intro bs h; cases bs <;> simp_all
    | cons a as ih =>
      intro bs h
      cases bs with
      | nil => simp at h
      | cons b bs =>
        simp only [List.map_cons, List.zip_cons_cons, List.all_cons, Bool.and_eq_true, globElem_escape, List.cons.injEq]
        rw [ih bs (by simpa using h)]
  constructor
  · rintro ⟨h1, h2⟩
    exact splitOn_inj _ _ ((key _ _ h1).mp h2)
  · rintro rfl
    exact ⟨rfl, (key _ _ rfl).mpr rfl⟩

/-- Where a file to store is: as it is if it begins with `/` or `..`, else in the folder. -/
def placeOf (folder name : Str) : Str :=
  if name.head? = some 0x2F ∨ str ".." <+: name then name else posixJoin2 folder name

theorem searchName_eq (folder name : Str) : searchName folder name = escapeGlob (placeOf folder name) := by
  unfold searchName placeOf
  have h1 := escape_head name 0x2F (by decide)
  have h2 : str ".." <+: escapeGlob name ↔ str ".." <+: name := by
    have hs : ∀ s : Str, str ".." <+: s ↔ ∃ t, s = 0x2E :: 0x2E :: t := by
      intro s
      constructor
      · rintro ⟨t, rfl⟩; exact ⟨t, rfl⟩
      · rintro ⟨t, rfl⟩; exact ⟨t, rfl⟩
    rw [hs, hs]
    constructor
    · rintro ⟨t, ht⟩
      cases name with
      | nil => simp [escapeGlob] at ht
      | cons c s =>
        rw [escapeGlob_cons] at ht
        by_cases hc : special c = true
        · rw [escChar_special c hc] at ht; simp at ht
        · rw [escChar_plain c (by simpa using hc)] at ht
          simp at ht
          have := (escape_head s 0x2E (by decide)).mp (by rw [ht.2]; rfl)
          cases s with
          | nil => simp at this
          | cons d s => simp at this; exact ⟨s, by rw [ht.1, this]⟩
    · rintro ⟨t, rfl⟩
      exact ⟨escapeGlob t, rfl⟩
  simp only [h1, h2]
  split
  · rfl
  · unfold posixJoin2
    have h3 : escapeGlob folder = [] ↔ folder = [] := by
      cases folder with
      | nil => simp [escapeGlob]
      | cons c s =>
        rw [escapeGlob_cons]
        by_cases hc : special c = true
        · rw [escChar_special c hc]; simp
        · rw [escChar_plain c (by simpa using hc)]; simp
    have h4 : (escapeGlob folder).getLast? = some 0x2F ↔ folder.getLast? = some 0x2F := by
      rcases List.eq_nil_or_concat folder with rfl | ⟨s, c, rfl⟩
      · simp [escapeGlob]
      · rw [List.concat_eq_append, escapeGlob_append, escapeGlob_cons]
        by_cases hc : special c = true
        · rw [escChar_special c hc]
          have : c ≠ 0x2F := by rintro rfl; revert hc; decide
          simp [escapeGlob, this]
        · rw [escChar_plain c (by simpa using hc)]
          simp [escapeGlob]
    simp only [h1, h3, h4]
    split
    · rfl
    · split
      · rw [escapeGlob_append]
      · rw [escapeGlob_append, escapeGlob_cons, escChar_plain 0x2F (by decide)]; rfl

/-- C44: the files that are found to be stored are those that are asked for, in that order: each
entry gives the file at its place if there is one, and nothing else. -/
theorem search_exact (all : List Str) (hall : all.Nodup) (isFile : Str → Bool) (files : List Str) (folder : Str) :
    search all isFile files folder =
      files.flatMap fun f => if placeOf folder f ∈ all ∧ isFile (placeOf folder f) = true then [placeOf folder f] else [] := by
  unfold search
  congr 1
  funext f
  rw [searchName_eq]
  generalize placeOf folder f = p
  unfold glob
  have : all.filter (globPath (escapeGlob p)) = if p ∈ all then [p] else [] := by
    have h1 : all.filter (globPath (escapeGlob p)) = all.filter (fun x => x == p) := by
      apply List.filter_congr
      intro x _
      rw [Bool.eq_iff_iff, glob_escape]
      simp
    rw [h1]
    clear h1
    induction all with
    | nil => rfl
    | cons x all ih =>
      rw [List.nodup_cons] at hall
      rw [List.filter_cons]
      by_cases hx : x = p
      · subst hx
        have := ih hall.2
        rw [if_neg hall.1] at this
        simp [this]
      · have := ih hall.2
        simp [hx, this, Ne.symm hx]
  rw [this]
  by_cases h1 : p ∈ all
  · by_cases h2 : isFile p = true
    · simp [h1, h2]
    · simp [h1, h2]
  · simp [h1]

/-- Without escaping, `a[1].sfv` is a pattern for another name. -/
example : globPath (str "x/a[1].sfv") (str "x/a1.sfv") = true ∧ globPath (str "x/a[1].sfv") (str "x/a[1].sfv") = false ∧
    globPath (escapeGlob (str "x/a[1].sfv")) (str "x/a[1].sfv") = true := by
  simp [globPath, globElem, hasMagic, fnmatch, globToks, globClass, globMatches, inGlobClass, splitOn, str, escapeGlob]

/-- The escaping also disables wildcards, which the description of `_search` accepts. -/
theorem search_no_wildcards (all : List Str) (isFile : Str → Bool) (folder : Str) (h : placeOf folder (str "*.nfo") ∉ all) (hn : all.Nodup) :
    search all isFile [str "*.nfo"] folder = [] := by
  rw [search_exact all hn]
  simp [h]

end Rescene.Props
