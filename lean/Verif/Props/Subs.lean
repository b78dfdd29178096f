import Verif.Lemmas.AutoStore
import Verif.Model.Subs
import Verif.Spec.Subs
import Verif.Lemmas.AutoFind2
import Std.Data.String.ToNat
/-
C91: SRR files for vobsubs.
-/
namespace Rescene.Props
open Rescene Rescene.Spec

/-! ### New folders -/

theorem natStr_inj {a b : Nat} (h : natStr a = natStr b) : a = b := by
  unfold natStr str at h
  have hinj : ∀ x y : List Char, x.map Char.toNat = y.map Char.toNat → x = y := by
    intro x
    induction x with
    | nil => intro y h; cases y with
      | nil => rfl
      | cons _ _ => cases h
    | cons c x ih =>
      intro y h
      cases y with
      | nil => cases h
      | cons d y =>
        simp only [List.map_cons, List.cons.injEq] at h
        have hc : c = d := Char.toNat_inj.1 h.1
        rw [hc, ih y h.2]
  have := hinj _ _ h
  exact Nat.repr_injective (String.toList_inj.1 this)

theorem natStr_plain (n : Nat) : 0x2F ∉ natStr n := by
  unfold natStr str
  intro h
  obtain ⟨c, hc, e⟩ := List.mem_map.1 h
  have : c ∈ Nat.toDigits 10 n := by
    have : (toString n).toList = Nat.toDigits 10 n := by simp [toString, Nat.repr]
    rwa [this] at hc
  have hd := Nat.isDigit_of_mem_toDigits (by decide) (by decide) this
  have hc2 : c = '/' := Char.toNat_inj.1 (by rw [e]; rfl)
  subst hc2
  revert hd
  decide

theorem join_pre {a b : Str} (hb : 0x2F ∉ b) : ∃ p, (∀ b', 0x2F ∉ b' → posixJoin2 a b' = p ++ b') ∧ posixJoin2 a b = p ++ b ∧ (p = [] ∨ p.getLast? = some 0x2F) := by
  by_cases h : a = [] ∨ a.getLast? = some 0x2F
  · refine ⟨a, fun b' hb' => ?_, ?_, h⟩
    · unfold posixJoin2; rw [if_neg (head_ne_of_not_mem hb'), if_pos h]
    · unfold posixJoin2; rw [if_neg (head_ne_of_not_mem hb), if_pos h]
  · refine ⟨a ++ [0x2F], fun b' hb' => ?_, ?_, Or.inr (by simp)⟩
    · unfold posixJoin2; rw [if_neg (head_ne_of_not_mem hb'), if_neg h]; simp
    · unfold posixJoin2; rw [if_neg (head_ne_of_not_mem hb), if_neg h]; simp

theorem join_inj {a b b' : Str} (hb : 0x2F ∉ b) (hb' : 0x2F ∉ b') (h : posixJoin2 a b = posixJoin2 a b') : b = b' := by
  obtain ⟨p, hp, _, _⟩ := join_pre (a := a) hb
  rw [hp b hb, hp b' hb'] at h
  exact List.append_cancel_left h

theorem freeLoop_new {there : List Str} {folder : Str} {fuel k : Nat}
    (h : ∀ j, 1 ≤ j → j < k → posixJoin2 folder (natStr j) ∈ there) (hk : 1 ≤ k) (hf : there.length + 1 ≤ k + fuel) :
    freeLoop there folder fuel k ∉ there := by
  induction fuel generalizing k with
  | zero =>
    unfold freeLoop
    intro hm
    have hsub : (List.range k).map (fun j => posixJoin2 folder (natStr (j + 1))) ⊆ there := by
      intro x hx
      obtain ⟨j, hj, rfl⟩ := List.mem_map.1 hx
      rw [List.mem_range] at hj
      by_cases e : j + 1 = k
      · rw [e]; exact hm
      · exact h (j + 1) (by omega) (by omega)
    have hnd : ((List.range k).map (fun j => posixJoin2 folder (natStr (j + 1)))).Nodup := by
      rw [List.Nodup, List.pairwise_map]
      refine (List.nodup_range (n := k)).imp ?_
      intro a b hne e
      exact hne (by have := natStr_inj (join_inj (natStr_plain _) (natStr_plain _) e); omega)
    have := hnd.length_le_of_subset hsub
    simp at this
    omega
  | succ fuel ih =>
    unfold freeLoop
    split
    · rename_i hc
      refine ih ?_ (by omega) (by omega)
      intro j h1 h2
      by_cases e : j = k
      · subst e; simpa using hc
      · exact h j h1 (by omega)
    · rename_i hc
      simpa using hc

/-- The folder that an archive is extracted to is new. -/
theorem free_dir_new (there : List Str) (folder short : Str) : freeDir there folder short ∉ there := by
  unfold freeDir
  split
  · exact freeLoop_new (by omega) (by omega) (by omega)
  · rename_i h; simpa using h

/-! ### The SRR files mirror the archives -/

theorem covered_mono {first : List Str → List Str} {log log' : List (Str × Str × List Str)} (hs : ∀ x ∈ log, x ∈ log') :
    ∀ (b : Box) (fr srr : Str), Covered first log b fr srr → Covered first log' b fr srr := by
  intro b
  induction b with
  | broken => intro _ _ h; exact h
  | full files inner ih =>
    rintro fr srr ⟨dest, h1, h2⟩
    exact ⟨dest, hs _ h1, fun n hn ho => ih n _ _ (h2 n hn ho)⟩

/-- A loop of `extract_and_create_srr`. -/
def boxLoop (w : SubWorld) (folder : Str) (get : Str → Box) (pathOf srrOf : Str → Str) (l : List Str) (a : List Str × SubState) : Res (List Str × SubState) :=
  l.foldlM (fun (a : List Str × SubState) n => do
    let b ← (get n).work w folder (pathOf n) (srrOf n) a.2
    .ok (a.1 ++ b.1.toList, b.2)) a

/-- What one turn does. -/
def TurnOk (w : SubWorld) (b : Box) : Prop := ∀ (folder fr srr : Str) (s : SubState) (r : Option Str × SubState), b.work w folder fr srr s = .ok r →
  r.1 = (if Box.opens b then some srr else none) ∧ (∃ t, r.2.made = s.made ++ t) ∧
  (Box.opens b = true → Covered (firstRars w.dig w.lower) r.2.made b fr srr) ∧ r.2.langs = appended s.langs (langTexts w b)

theorem appended_append (o : Option Bytes) (a b : List Bytes) : appended (appended o a) b = appended o (a ++ b) := by
  cases a with
  | nil => rfl
  | cons x a =>
    cases b with
    | nil => simp [appended]
    | cons y b => simp [appended]

theorem boxLoop_ok {w : SubWorld} {folder : Str} {get : Str → Box} {pathOf srrOf : Str → Str} {l : List Str} (hg : ∀ n ∈ l, TurnOk w (get n))
    {a r : List Str × SubState} (h : boxLoop w folder get pathOf srrOf l a = .ok r) :
    r.1 = a.1 ++ (l.filter fun n => Box.opens (get n)).map srrOf ∧ (∃ t, r.2.made = a.2.made ++ t) ∧
    (∀ n ∈ l, Box.opens (get n) = true → Covered (firstRars w.dig w.lower) r.2.made (get n) (pathOf n) (srrOf n)) ∧
    r.2.langs = appended a.2.langs (l.flatMap fun n => langTexts w (get n)) := by
  induction l generalizing a with
  | nil =>
    simp only [boxLoop, List.foldlM_nil] at h
    cases h
    exact ⟨by simp, ⟨[], by simp⟩, by simp, by simp [appended]⟩
  | cons n l ih =>
    unfold boxLoop at h
    rw [List.foldlM_cons] at h
    obtain ⟨a', h1, h2⟩ := bind_eq_ok.1 h
    obtain ⟨b, hb, h1⟩ := bind_eq_ok.1 h1
    cases h1
    obtain ⟨e1, ⟨t, ht⟩, hc, hl⟩ := hg n (by simp) _ _ _ _ _ hb
    obtain ⟨i1, ⟨t', ht'⟩, ic, il⟩ := ih (fun m hm => hg m (by simp [hm])) h2
    refine ⟨?_, ⟨t ++ t', ?_⟩, ?_, ?_⟩
    · rw [i1, e1, List.filter_cons]
      split <;> simp [*]
    · rw [ht', ht]; simp
    · intro m hm ho
      rcases List.mem_cons.1 hm with rfl | hm
      · refine covered_mono ?_ _ _ _ (hc ho)
        intro x hx
        rw [ht']
        exact List.mem_append_left _ hx
      · exact ic m hm ho
    · rw [il, hl, appended_append]
      simp

theorem addLangs_eq (w : SubWorld) (o : Option Bytes) (files : List (Str × Bytes)) : addLangs w o files = appended o ((idxFiles w.lower files).map (idxText w.utf8)) := by
  unfold addLangs
  generalize idxFiles w.lower files = l
  induction l generalizing o with
  | nil => rfl
  | cons f l ih =>
    rw [List.foldl_cons, ih]
    cases l <;> simp [appended]

theorem newSrr_join {d n : Str} (hn : 0x2F ∉ n) : newSrr d (posixJoin2 d n) = posixJoin2 d (cut4 n) ++ str ".srr" := by
  obtain ⟨p, _, e, hp⟩ := join_pre (a := d) hn
  unfold newSrr cut4
  rw [e, base_app hn hp]

/-- The names of the files that come out of archives have no slash (`unrar e -ep`). -/
def BoxOk : Box → Prop
  | .broken => True
  | .full files inner => (∀ f ∈ files, 0x2F ∉ f.1) ∧ ∀ n, BoxOk (inner n)

theorem firstLoop_sub (fuel i : Nat) (l : List Str) : ∀ x ∈ firstLoop fuel i l, x ∈ l := by
  induction fuel generalizing i l with
  | zero => intro x hx; exact hx
  | succ fuel ih =>
    intro x hx
    unfold firstLoop at hx
    split at hx
    · exact hx
    · have := ih _ _ x hx
      split at this
      · exact List.mem_of_mem_erase this
      · exact this

theorem firstRars_sub (dig : Nat → Bool) (lower : Str → Str) (files : List Str) : ∀ x ∈ firstRars dig lower files, x ∈ files := by
  intro x hx
  unfold firstRars at hx
  dsimp only at hx
  split at hx
  · split at hx
    · exact (List.mem_filter.1 (List.mem_filter.1 hx).1).1
    · split at hx
      · cases hx
      · exact (List.mem_filter.1 hx).1
  · exact (List.mem_filter.1 (firstLoop_sub _ _ _ x hx)).1

theorem turn_ok {w : SubWorld} (hm : ∀ p, w.canMake p = true) : ∀ b, BoxOk b → TurnOk w b := by
  intro b
  induction b with
  | broken =>
    intro _ folder fr srr s r h
    simp only [Box.work, hm, if_true] at h
    cases h
    exact ⟨rfl, ⟨[], by simp⟩, fun ho => Bool.noConfusion ho, rfl⟩
  | full files inner ih =>
    rintro ⟨hf, hi⟩ folder fr srr s r h
    simp only [Box.work, hm, if_true] at h
    obtain ⟨q, hq, h⟩ := bind_eq_ok.1 h
    obtain ⟨_, hcr, h⟩ := bind_eq_ok.1 h
    cases h
    obtain ⟨dest, hd⟩ : ∃ d, d = freeDir s.there folder (w.short fr) := ⟨_, rfl⟩
    rw [← hd] at hq
    obtain ⟨q1, ⟨t, ht⟩, qc, ql⟩ := boxLoop_ok (get := inner) (pathOf := fun n => posixJoin2 dest n) (srrOf := fun n => newSrr dest (posixJoin2 dest n))
      (fun n _ => ih n (hi n)) hq
    have hplain : ∀ n ∈ firstRars w.dig w.lower (files.map (·.1)), 0x2F ∉ n := by
      intro n hn
      obtain ⟨f, hfm, rfl⟩ := List.mem_map.1 (firstRars_sub _ _ _ n hn)
      exact hf f hfm
    have hnames : ((firstRars w.dig w.lower (files.map (·.1))).filter fun n => Box.opens (inner n)).map (fun n => newSrr dest (posixJoin2 dest n)) =
        ((firstRars w.dig w.lower (files.map (·.1))).filter fun n => Box.opens (inner n)).map fun n => posixJoin2 dest (cut4 n) ++ str ".srr" := by
      refine List.map_congr_left ?_
      intro n hn
      exact newSrr_join (hplain n (List.mem_filter.1 hn).1)
    refine ⟨rfl, ⟨t ++ [(srr, fr, q.1)], ?_⟩, fun _ => ⟨dest, ?_, ?_⟩, ?_⟩
    · dsimp only; rw [ht]; simp
    · dsimp only
      rw [q1, hnames]
      simp
    · intro n hn ho
      rw [← newSrr_join (hplain n hn)]
      refine covered_mono ?_ _ _ _ (qc n hn ho)
      intro x hx
      exact List.mem_append_left _ hx
    · dsimp only
      rw [ql, addLangs_eq, appended_append]
      rfl

/-- Where the SRR files of the first volumes of an SFV file go: with one set, beside the SFV file under its name; with more, each under the
name of its first volume. -/
theorem top_srr (dest : Str) (folder fr : Str) (rars : List Str) :
    topSrr (cut4 dest ++ str ".srr") rars folder fr = (if rars.length > 1 then posixJoin2 (dirname (cut4 dest ++ str ".srr")) (cut4 (basename fr) ++ str ".srr") else cut4 dest ++ str ".srr") := by
  unfold topSrr
  split
  · congr 1
    obtain ⟨_, _, hb, _⟩ := base_split fr
    have hc : 0x2F ∉ cut4 (basename fr) := fun h => hb (List.mem_of_mem_take h)
    obtain ⟨p, _, e, hp⟩ := join_pre (a := folder) hc
    unfold newSrr
    have : posixJoin2 folder ((basename fr).take ((basename fr).length - 4)) = p ++ cut4 (basename fr) := e
    rw [this, List.append_assoc]
    exact base_app (by simp [hc]; decide) hp
  · rfl

/-- The SRR file of a first volume. -/
def subName (dest : Str) (rars : List Str) (fr : Str) : Str :=
  if rars.length > 1 then posixJoin2 (dirname (cut4 dest ++ str ".srr")) (cut4 (basename fr) ++ str ".srr") else cut4 dest ++ str ".srr"

/-- When nothing fails, every archive that can be extracted has an SRR file, at every depth; it is stored in the SRR file of the
archive around it, and the outermost ones are given back in the order of the SFV file. -/
theorem subs_mirror {w : SubWorld} (hm : ∀ p, w.canMake p = true) (hb : ∀ p, BoxOk (w.box p)) {dest : Str} {rars : List Str} {s : SubState}
    {r : List Str × SubState} (h : subsMade w dest rars s = .ok r) :
    r.1 = (rars.filter fun fr => Box.opens (w.box fr)).map (subName dest rars) ∧
    (∀ fr ∈ rars, Box.opens (w.box fr) = true → Covered (firstRars w.dig w.lower) r.2.made (w.box fr) fr (subName dest rars fr)) ∧
    r.2.langs = appended s.langs (rars.flatMap fun fr => langTexts w (w.box fr)) := by
  unfold subsMade at h
  split at h
  · cases h
    exact ⟨rfl, by simp, by simp [appended]⟩
  · rename_i x xs
    dsimp only at h
    obtain ⟨folder, hfo⟩ : ∃ f, f = freeDir s.there (dirname dest) (w.short x) := ⟨_, rfl⟩
    rw [← hfo] at h
    obtain ⟨q1, _, qc, ql⟩ := boxLoop_ok (get := w.box) (pathOf := fun n => n) (srrOf := fun fr => topSrr (dest.take (dest.length - 4) ++ str ".srr") (x :: xs) folder fr)
      (fun n _ => turn_ok hm _ (hb n)) h
    have hn : ∀ fr, topSrr (dest.take (dest.length - 4) ++ str ".srr") (x :: xs) folder fr = subName dest (x :: xs) fr := fun fr => top_srr dest folder fr _
    refine ⟨?_, ?_, ql⟩
    · rw [q1]
      simp only [List.nil_append]
      exact List.map_congr_left fun fr _ => hn fr
    · intro fr hfr ho
      rw [← hn]
      exact qc fr hfr ho

/-- The names of the SRR files are different when the first volumes have different names without their last four characters.
Missing: names that differ only there (`subs_collide`). -/
theorem subs_names_partial {w : SubWorld} (hm : ∀ p, w.canMake p = true) (hb : ∀ p, BoxOk (w.box p)) {dest : Str} {rars : List Str} {s : SubState}
    {r : List Str × SubState} (h : subsMade w dest rars s = .ok r) (hd : (rars.map fun f => cut4 (basename f)).Nodup) : r.1.Nodup := by
  rw [(subs_mirror hm hb h).1]
  by_cases hl : rars.length > 1
  · have hd' : ((rars.filter fun fr => Box.opens (w.box fr)).map fun f => cut4 (basename f)).Nodup := (List.filter_sublist.map _).nodup hd
    rw [List.Nodup, List.pairwise_map] at hd' ⊢
    refine hd'.imp ?_
    intro a b hne e
    unfold subName at e
    rw [if_pos hl, if_pos hl] at e
    have hp : ∀ f, 0x2F ∉ cut4 (basename f) ++ str ".srr" := by
      intro f hf
      rcases List.mem_append.1 hf with h | h
      · obtain ⟨_, _, hb, _⟩ := base_split f
        exact hb (List.mem_of_mem_take h)
      · revert h; decide
    exact hne (List.append_cancel_right (join_inj (hp a) (hp b) e))
  · cases rars with
    | nil => simp
    | cons x xs =>
      cases xs with
      | nil => rw [List.filter_cons]; split <;> simp
      | cons _ _ => simp at hl

/-- One archive that no SRR file can be made of takes away all SRR files of the set, also those that were made before. -/
theorem subs_fail_together {w : SubWorld} {dest : Str} {rars : List Str} {s : SubState} {fr : Str} (hfr : fr ∈ rars) {files : List (Str × Bytes)} {inner : Str → Box}
    (hm : ∀ p, w.canMake p = true) (hb : w.box fr = .full files inner) {e : Err} (hc : ∀ srr stored, w.create srr fr stored = .error e) :
    ∃ e', subsMade w dest rars s = .error e' := by
  cases hr : subsMade w dest rars s with
  | error e' => exact ⟨e', rfl⟩
  | ok r =>
    exfalso
    unfold subsMade at hr
    split at hr
    · cases hfr
    · rename_i x xs
      dsimp only at hr
      have key : ∀ (folder : Str) (g : Str → Str) (l : List Str) (a r : List Str × SubState), fr ∈ l → boxLoop w folder w.box (fun n => n) g l a = .ok r → False := by
        intro folder g l
        induction l with
        | nil => intro _ _ h; cases h
        | cons n l ih =>
          intro a r hfl h
          unfold boxLoop at h
          rw [List.foldlM_cons] at h
          obtain ⟨a', h1, h2⟩ := bind_eq_ok.1 h
          obtain ⟨b, hbn, h1⟩ := bind_eq_ok.1 h1
          rcases List.mem_cons.1 hfl with rfl | hfl
          · rw [hb] at hbn
            simp only [Box.work, hm, if_true] at hbn
            obtain ⟨q, _, hbn⟩ := bind_eq_ok.1 hbn
            obtain ⟨_, hcr, _⟩ := bind_eq_ok.1 hbn
            rw [hc] at hcr
            cases hcr
          · exact ih _ _ hfl h2
      exact key _ _ _ _ _ hfr hr

/-! ### The languages -/

/-- The lines of a file put together are the file, and each has one line break, at its end, except that there can be something
after the last one. -/
theorem lines_spec (data : Bytes) : (keepLines data).flatten = data ∧
    ∃ (lines : List Bytes) (rest : Bytes), keepLines data = lines.map (· ++ [0x0A]) ++ (if rest = [] then [] else [rest]) ∧ (∀ l ∈ lines, 0x0A ∉ l) ∧ 0x0A ∉ rest := by
  induction data with
  | nil => exact ⟨rfl, [], [], rfl, by simp, by simp⟩
  | cons c s ih =>
    obtain ⟨h1, lines, rest, h2, h3, h4⟩ := ih
    by_cases hc : c = 0x0A
    · simp only [keepLines, if_pos hc]
      exact ⟨by simp [h1], [] :: lines, rest, by simp [h2, hc], by simpa using h3, h4⟩
    · have hc' : ¬ (0x0A = c) := fun h => hc h.symm
      simp only [keepLines, if_neg hc]
      cases lines with
      | nil =>
        simp only [List.map_nil, List.nil_append] at h2
        by_cases hr : rest = []
        · rw [if_pos hr] at h2
          rw [h2] at h1 ⊢
          exact ⟨by simpa using h1, [], [c], by simp, by simp, by simpa using hc'⟩
        · rw [if_neg hr] at h2
          rw [h2] at h1 ⊢
          exact ⟨by simpa using h1, [], c :: rest, by simp, by simp, by simp [hc', h4]⟩
      | cons x lines =>
        simp only [List.map_cons, List.cons_append] at h2
        rw [h2] at h1 ⊢
        refine ⟨by simpa using h1, (c :: x) :: lines, rest, by simp, ?_, h4⟩
        intro l hl
        rcases List.mem_cons.1 hl with rfl | hl
        · simp [hc', h3 x (by simp)]
        · exact h3 l (by simp [hl])

/-- The SRR files of an SFV file, and what is stored as `languages.diz` in the first of them: what was there before, and then the
languages of every archive, at every depth. -/
theorem subs_languages {w : SubWorld} (hm : ∀ p, w.canMake p = true) (hb : ∀ p, BoxOk (w.box p)) {sfv dest : Str} {listed : List Str} {s : SubState}
    {l : List Str} {d : Option (Str × Bytes)} {s' : SubState} (h : subsSrrs w sfv dest listed s = .ok (l, d, s')) :
    l = ((subRars w listed sfv).filter fun fr => Box.opens (w.box fr)).map (subName dest (subRars w listed sfv)) ∧
    s'.langs = appended s.langs ((subRars w listed sfv).flatMap fun fr => langTexts w (w.box fr)) ∧
    ∀ x, d = some x ↔ l.head? = some x.1 ∧ s'.langs = some x.2 := by
  unfold subsSrrs at h
  obtain ⟨r, hr, h⟩ := bind_eq_ok.1 h
  obtain ⟨h1, _, h3⟩ := subs_mirror hm hb hr
  split at h
  · rename_i hh hl
    cases h
    refine ⟨h1, h3, ?_⟩
    rintro ⟨a, b⟩
    rw [hh, hl]
    simp
  · rename_i hno
    cases h
    refine ⟨h1, h3, ?_⟩
    rintro ⟨a, b⟩
    exact Iff.intro (fun hh => by cases hh) (fun hh => absurd hh.2 (hno a b hh.1))

/-- The languages of a folder come from its IDX files, whatever the capitals of the extension, in the order of their names; a file with
another extension adds nothing. -/
theorem idx_files (lower : Str → Str) (files : List (Str × Bytes)) (hl : ∀ s, (lower s).length = s.length) :
    (∀ f, f ∈ idxFiles lower files ↔ f ∈ files ∧ ∃ stem ext, f.1 = stem ++ ext ∧ lower ext = str ".idx") ∧
    (idxFiles lower files).Pairwise (fun a b => strLe a.1 b.1 = true) := by
  refine ⟨fun f => ?_, (sortOn_sorted files).sublist List.filter_sublist⟩
  unfold idxFiles
  rw [List.mem_filter, (sortOn_perm files).mem_iff, beq_iff_eq]
  constructor
  · rintro ⟨h1, h2⟩
    exact ⟨h1, f.1.take (f.1.length - 4), f.1.drop (f.1.length - 4), (List.take_append_drop _ _).symm, h2⟩
  · rintro ⟨h1, stem, ext, h2, h3⟩
    have : ext.length = 4 := by rw [← hl ext, h3]; rfl
    refine ⟨h1, ?_⟩
    rw [h2, List.length_append, this, Nat.add_sub_cancel, List.drop_left]
    exact h3

example : idxFiles lowerStr [(str "b.idx", [1]), (str "x.sub", [2]), (str "a.IDX", [3])] = [(str "a.IDX", [3]), (str "b.idx", [1])] := by decide

/-- `languages.diz` stays in the working folder, so when there is another SFV file with subtitles, the first of its SRR files
stores the languages of the SFV files before it, also when it has no IDX files. -/
theorem languages_of_before {w : SubWorld} (hm : ∀ p, w.canMake p = true) (hb : ∀ p, BoxOk (w.box p)) {sfv dest : Str} {listed : List Str} {s : SubState}
    {l : List Str} {d : Option (Str × Bytes)} {s' : SubState} (h : subsSrrs w sfv dest listed s = .ok (l, d, s')) {srr : Str} (hl : l.head? = some srr)
    {old : Bytes} (ho : s.langs = some old) : ∃ more, d = some (srr, old ++ more) := by
  obtain ⟨_, h2, h3⟩ := subs_languages hm hb h
  rw [ho] at h2
  generalize ((subRars w listed sfv).flatMap fun fr => langTexts w (w.box fr)) = t at h2
  cases t with
  | nil => exact ⟨[], (h3 _).2 ⟨hl, by rw [h2]; simp [appended]⟩⟩
  | cons x t => exact ⟨(x :: t).flatten, (h3 _).2 ⟨hl, by rw [h2]; simp [appended]⟩⟩

/-- The first volumes are those that the SFV file lists; when it lists none, one archive with the name of the SFV file is used if there
is any. -/
theorem sub_rars (w : SubWorld) (listed : List Str) (base : Str) :
    (listed ≠ [] → subRars w listed (base ++ str ".sfv") = listed) ∧
    (listed = [] → (subRars w listed (base ++ str ".sfv")).length ≤ 1 ∧
      (∀ x ∈ subRars w listed (base ++ str ".sfv"), w.isFile x = true ∧ ∃ e ∈ [".rar", ".part1.rar", ".part01.rar", ".001"], x = base ++ str e) ∧
      ∀ e ∈ [".rar", ".part1.rar", ".part01.rar", ".001"], w.isFile (base ++ str e) = true → subRars w listed (base ++ str ".sfv") ≠ []) := by
  constructor
  · intro h
    unfold subRars
    split
    · exact absurd rfl h
    · rfl
  · rintro rfl
    have hb : (base ++ str ".sfv").take ((base ++ str ".sfv").length - 4) = base := by
      have : (base ++ str ".sfv").length - 4 = base.length := by
        rw [List.length_append]; simp [str]
      rw [this, List.take_left]
    unfold subRars
    dsimp only
    rw [hb]
    cases hf : [".rar", ".part1.rar", ".part01.rar", ".001"].find? fun e => w.isFile (base ++ str e) with
    | none =>
      rw [List.find?_eq_none] at hf
      exact ⟨by simp, by simp, fun e he ht => absurd ht (hf e he)⟩
    | some e =>
      have h1 := List.find?_some hf
      have h2 := List.mem_of_find?_eq_some hf
      exact ⟨by simp, fun x hx => by rw [List.mem_singleton] at hx; subst hx; exact ⟨h1, e, h2, rfl⟩, by simp⟩

/-! ### All SFV files -/

/-- Skipped are the SFV files of which a RAR file is stored, by the end of its path, and those in the folder of a dirfix. -/
theorem sub_skipped (lower : Str → Str) (copied : List Str) (folder base : Str) (hb : 0x2F ∉ base) :
    subSkipped lower copied (posixJoin2 folder (base ++ str ".sfv")) = true ↔
      (∃ c ∈ copied, base ++ str ".rar" <:+ c) ∨ str "dirfix" <:+: lower (basename (normpath (dirname (posixJoin2 folder (base ++ str ".sfv"))))) := by
  have hn : 0x2F ∉ base ++ str ".sfv" := by
    intro h
    rcases List.mem_append.1 h with h | h
    · exact hb h
    · revert h; decide
  have hbase : basename (posixJoin2 folder (base ++ str ".sfv")) = base ++ str ".sfv" := by
    obtain ⟨p, _, e, hp⟩ := join_pre (a := folder) hn
    rw [e]
    exact base_app hn hp
  have ht : (base ++ str ".sfv").take ((base ++ str ".sfv").length - 3) ++ str "rar" = base ++ str ".rar" := by
    have e1 : base ++ str ".sfv" = (base ++ str ".") ++ str "sfv" := by rw [List.append_assoc]; rfl
    have e2 : (base ++ str ".sfv").length - 3 = (base ++ str ".").length := by simp [str]
    rw [e2, e1, List.take_left, List.append_assoc]
    rfl
  unfold subSkipped
  rw [hbase, ht]
  simp only [Bool.or_eq_true, List.any_eq_true, List.isSuffixOf_iff_suffix, isIn_iff]

theorem srr_no_rar {c x : Str} (h : str ".srr" <:+ c) (hx : x ++ str "rar" <:+ c) : False := by
  have h2 : str "rar" <:+ c := List.IsSuffix.trans ⟨x, rfl⟩ hx
  have h3 : str "rar" <:+ str ".srr" := by
    refine List.suffix_of_suffix_length_le h2 h (by decide)
  revert h3
  decide

theorem skipped_srrs {lower : Str → Str} {copied l : List Str} (h : ∀ x ∈ l, str ".srr" <:+ x) (e : Str) :
    subSkipped lower (copied ++ l) e = subSkipped lower copied e := by
  unfold subSkipped
  rw [List.any_append]
  have : (l.any fun c => (((basename e).take ((basename e).length - 3)) ++ str "rar").isSuffixOf c) = false := by
    rw [List.any_eq_false]
    intro x hx hs
    exact srr_no_rar (h x hx) (List.isSuffixOf_iff_suffix.1 hs)
  rw [this, Bool.or_false]

/-- Whether an SFV file is skipped does not depend on the ones before it; the files already there stay, and after them come
the SRR files of the other SFV files in order, with those of the main SFV files at the end for releases of only subtitles.  A `ValueError`
with one SFV file does not keep the SRR files of another away. -/
theorem subs_stored {lower : Str → Str} {one : Str → Option (List Str)} (hs : ∀ e l, one e = some l → ∀ x ∈ l, str ".srr" <:+ x) (copied extra main : List Str) (rls : Str) :
    subsAll lower one copied extra main rls = copied ++ (extra.filter fun e => !subSkipped lower copied e).flatMap (fun e => (one e).getD []) ++
      (if str "subpack" <:+: lower rls ∨ str "subfix" <:+: lower rls then main.flatMap (fun e => (one e).getD []) else []) := by
  have key : ∀ (extra l : List Str), (∀ x ∈ l, str ".srr" <:+ x) → subsLoop lower one (copied ++ l) extra =
      copied ++ l ++ (extra.filter fun e => !subSkipped lower copied e).flatMap (fun e => (one e).getD []) := by
    intro extra
    induction extra with
    | nil => intro l _; simp [subsLoop]
    | cons e extra ih =>
      intro l hl
      unfold subsLoop
      rw [List.foldl_cons, skipped_srrs hl, List.filter_cons]
      cases hk : subSkipped lower copied e with
      | true => simpa [subsLoop] using ih l hl
      | false =>
        have hl' : ∀ x ∈ l ++ (one e).getD [], str ".srr" <:+ x := by
          intro x hx
          rcases List.mem_append.1 hx with hx | hx
          · exact hl x hx
          · cases ho : one e with
            | none => rw [ho] at hx; cases hx
            | some y => rw [ho] at hx; exact hs e y ho x hx
        have := ih _ hl'
        unfold subsLoop at this
        simp only [Bool.false_eq_true, if_false, Bool.not_false, if_true, List.flatMap_cons]
        rw [List.append_assoc, this]
        simp
  have hmain : ∀ (main c : List Str), main.foldl (fun c m => c ++ (one m).getD []) c = c ++ main.flatMap (fun e => (one e).getD []) := by
    intro main
    induction main with
    | nil => intro c; simp
    | cons m main ih => intro c; rw [List.foldl_cons, ih]; simp
  have hk := key extra [] (by simp)
  rw [List.append_nil] at hk
  unfold subsAll
  dsimp only
  rw [hk]
  by_cases hr : str "subpack" <:+: lower rls ∨ str "subfix" <:+: lower rls
  · rw [if_pos (by simpa [isIn_iff] using hr), if_pos hr, hmain]
  · rw [if_neg (by simpa [isIn_iff] using hr), if_neg hr, List.append_nil]

/-- The SRR files have such names. -/
theorem sub_name_ends (dest : Str) (rars : List Str) (fr : Str) : str ".srr" <:+ subName dest rars fr := by
  unfold subName
  split
  · have hp : 0x2F ∉ cut4 (basename fr) ++ str ".srr" := by
      intro hf
      rcases List.mem_append.1 hf with h | h
      · obtain ⟨_, _, hb, _⟩ := base_split fr
        exact hb (List.mem_of_mem_take h)
      · revert h; decide
    obtain ⟨p, _, e, _⟩ := join_pre (a := dirname (cut4 dest ++ str ".srr")) hp
    rw [e, ← List.append_assoc]
    exact ⟨_, rfl⟩
  · exact ⟨_, rfl⟩

/-! ### A release -/

/-- An archive with an IDX file and an archive with another one. -/
def exBox : Box := .full [(str "b.rar", []), (str "a.idx", [0x78, 0x0A, 0x69, 0x64, 0x3A, 0x20, 0x65, 0x6E, 0x0A])]
  fun _ => .full [(str "c.idx", [0x69, 0x64, 0x3A, 0x20, 0x66, 0x72, 0x0A]), (str "c.sub", [1])] fun _ => .broken

/-- Two sets of subtitles, the second without IDX files; the archives in `/r/x` cannot be extracted. -/
def exSubWorld : SubWorld :=
  { dig := fun c => (0x30 ≤ c && c ≤ 0x39 : Bool), lower := lowerStr, canMake := fun _ => true, short := fun _ => str "abc", utf8 := fun s => s.map UInt8.ofNat,
    create := fun _ _ _ => .ok (),
    box := fun p => if p == str "/r/x/bad.rar" then .broken else if p == str "/r/t/srt.rar" then .full [(str "a.srt", [1, 2])] (fun _ => .broken) else exBox,
    isFile := fun _ => false }

theorem exSubWorld_ok (p : Str) : BoxOk (exSubWorld.box p) := by
  unfold exSubWorld
  dsimp only
  split
  · trivial
  · split
    · exact ⟨by decide, fun _ => trivial⟩
    · exact ⟨by decide, fun _ => ⟨by decide, fun _ => trivial⟩⟩

def exSubStart : SubState := ⟨[], none, []⟩

/-- The archive in the archive has an SRR file too, and both IDX files are in `languages.diz`. -/
example : (match subsSrrs exSubWorld (str "/r/s/s.sfv") (str "/w/s/s.sfv") [str "/r/s/s.rar"] exSubStart with
    | .ok (l, d, s) => l == [str "/w/s/s.srr"] && (s.made == [(str "/w/s/abc/abc/b.srr", str "/w/s/abc/abc/b.rar", []), (str "/w/s/s.srr", str "/r/s/s.rar", [str "/w/s/abc/abc/b.srr"])]) &&
        d == some (str "/w/s/s.srr", (str "# a.idx\nid: en\n# c.idx\nid: fr\n").map UInt8.ofNat)
    | .error _ => false) = true := by decide +kernel

/-- After it, the set without IDX files gets the languages of the first set. -/
example : (match subsSrrs exSubWorld (str "/r/t/srt.sfv") (str "/w/t/srt.sfv") [str "/r/t/srt.rar"] { exSubStart with langs := some [0x23] } with
    | .ok (l, d, _) => l == [str "/w/t/srt.srr"] && d == some (str "/w/t/srt.srr", [0x23])
    | .error _ => false) = true := by decide +kernel

/-- Two sets whose first volumes have the same name up to the extension get one SRR file: the second is written over the first. -/
theorem subs_collide : (match subsMade exSubWorld (str "/w/s/s.sfv") [str "/r/s/s.rar", str "/r/s/s.001"] exSubStart with
    | .ok (l, _) => l == [str "/w/s/s.srr", str "/w/s/s.srr"]
    | .error _ => false) = true := by decide +kernel

/-- An archive that cannot be extracted has no SRR file, and the others still have theirs. -/
example : (match subsMade exSubWorld (str "/w/s/s.sfv") [str "/r/x/bad.rar", str "/r/s/s.rar"] exSubStart with
    | .ok (l, _) => l == [str "/w/s/s.srr"]
    | .error _ => false) = true := by decide +kernel

/-- A set of subtitles is skipped when the name of some other stored file only ends like that of its RAR file. -/
theorem skip_by_end : subSkipped lowerStr [str "/w/Proof/group-proof-subs.rar"] (str "/r/Subs/subs.sfv") = true ∧
    basename (str "/w/Proof/group-proof-subs.rar") ≠ str "subs.rar" := by decide +kernel

end Rescene.Props
