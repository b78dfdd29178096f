import Verif.Lemmas.Release
/-
The search for releases in a tree of folders, and which folders are releases.
-/
namespace Rescene.Props
open Rescene Rescene.Spec

/-! ### The search -/

/-- Every folder that is found is a release, no folder is found twice, and none is found inside of another one. -/
theorem search_sound (dig : Nat → Bool) (lower : Str → Str) {root : Str} (hr : RootOk root) {t : Tree} (ht : NamesOk t) :
    (∀ p ∈ releaseDirs dig lower root t, ∃ names s, p = pathAt root names ∧ folderAt t names = some s ∧
      s.isRelease dig lower (nameAt root names) = true) ∧
    (releaseDirs dig lower root t).Nodup ∧
    (∀ m n, (∃ s, folderAt t m = some s) → (∃ s, folderAt t n = some s) → pathAt root m ∈ releaseDirs dig lower root t →
      pathAt root n ∈ releaseDirs dig lower root t → m <+: n → m = n) := by
  refine ⟨?_, ?_, ?_⟩
  · intro p hp
    obtain ⟨s, h1, h2⟩ := loop_mem hp
    obtain ⟨ns, rfl, h3⟩ := (mem_walk t ht root hr p s).1 h1
    refine ⟨ns, s, rfl, h3, ?_⟩
    have := basename_pathAt (root := root) fun n hn => (folderAt_names ht h3 n hn).2
    simpa only [this] using h2
  · exact (loop_sub _ _).nodup (walk_nodup hr ht)
  · rintro m n ⟨s, hm⟩ ⟨s', hn⟩ h1 h2 h3
    exact loop_apart hr ht t [] rfl [] m n (fun x hx => (folderAt_names ht hm x hx).2) (fun x hx => (folderAt_names ht hn x hx).2) h1 h2 h3

/-- The search finds exactly the releases that are not inside of a release.  Missing: trees in which the path of a
folder contains the path of a release that it is not inside of (`search_complete_violated`). -/
theorem search_complete_partial (dig : Nat → Bool) (lower : Str → Str) {root : Str} (hr : RootOk root) {t : Tree} (ht : NamesOk t)
    (hl : ¬ LooksInside (fun n s => s.isRelease dig lower n) root t) (p : Str) :
    p ∈ releaseDirs dig lower root t ↔ ∃ names, p = pathAt root names ∧ TopRelease (fun n s => s.isRelease dig lower n) root t names := by
  have := (loop_spec hr ht hl t [] rfl [] (Or.inl rfl)).1 p
  simp only [List.nil_append] at this
  exact this

/-! ### Releases -/

/-- A folder with a name of a folder in a release, or with a space in its name, is no release. -/
theorem name_never (dig : Nat → Bool) (lower : Str → Str) {name : Str} (h : NotReleaseName dig name) (t : Tree) :
    t.isRelease dig lower name = false := by
  obtain ⟨files, dirs⟩ := t
  rw [Tree.isRelease]
  rcases badName_iff.2 h with h | h
  · simp [h]
  · dsimp only
    rw [h, Bool.and_false, ite_self]

/-- A folder with an NFO or SFV file that comes with releases is a release, unless its name or its being a pack
speaks against it. -/
theorem scene_release (dig : Nat → Bool) (lower : Str → Str) (name : Str) (t : Tree) (h : ∃ f ∈ t.files, SceneFile lower f) :
    t.isRelease dig lower name = true ↔ ¬ NotReleaseName dig name ∧ ¬ Pack lower (fun n s => s.isRelease dig lower n) t := by
  obtain ⟨files, dirs⟩ := t
  have hs : files.any (sceneFile lower) = true := by
    obtain ⟨f, hf, h1, h2⟩ := h
    rw [List.any_eq_true]
    refine ⟨f, hf, ?_⟩
    unfold sceneFile notScene
    rw [Bool.and_eq_true, Bool.or_eq_true, beq_iff_eq, beq_iff_eq]
    refine ⟨h1, ?_⟩
    simpa using h2
  have hfirst : looksReleased dig lower (.mk files dirs) = (true, []) := by
    unfold looksReleased
    rw [show (Tree.mk files dirs).files = files from rfl, if_pos hs]
  by_cases hn : NotReleaseName dig name
  · rw [name_never dig lower hn]
    simp [hn]
  · have hn' := hn
    rw [← badName_iff, not_or, Bool.not_eq_true, Bool.not_eq_false] at hn'
    rw [Tree.isRelease]
    simp only [hfirst, hn'.1, hn'.2, Bool.not_false, Bool.and_true, Bool.not_true, Bool.false_eq_true, if_false, List.isEmpty_nil, hn, not_false_eq_true, true_and]
    by_cases hnfo : loneNfo lower files = true
    · rw [if_pos hnfo]
      rw [loneNfo_iff] at hnfo
      have halb : (decide (dirs.toList.length = ((dirs.toList.filter fun d => noHyphen d.1).filter fun d => hasSfv lower d.2).length) &&
          decide (((dirs.toList.filter fun d => noHyphen d.1).filter fun d => hasSfv lower d.2).length ≥ 2)) = true ↔
          2 ≤ dirs.toList.length ∧ ∀ d ∈ dirs.toList, PlainName d.1 ∧ WithSfv lower d.2 := by
        rw [Bool.and_eq_true, decide_eq_true_eq, decide_eq_true_eq]
        have := count_all dirs.toList (fun d => noHyphen d.1) (fun d => hasSfv lower d.2)
        simp only [noHyphen_iff, hasSfv_iff] at this
        rw [← this]
        constructor
        · rintro ⟨h1, h2⟩; exact ⟨by omega, h1⟩
        · rintro ⟨h1, h2⟩; exact ⟨h2, by omega⟩
      by_cases hp : (dirs.arePack dig lower && !dirs.toList.isEmpty) = true
      · rw [hp]
        rw [Bool.and_eq_true, arePack_iff] at hp
        have hne : dirs.toList ≠ [] := by simpa using hp.2
        by_cases h10 : dirs.toList.length ≤ 10
        · simp only [decide_eq_true h10, Bool.and_true, if_true, halb]
          constructor
          · rintro ⟨h1, h2⟩ hpack
            exact hpack.2.2.2 ⟨h10, h1, h2⟩
          · intro hpack
            by_cases ha : 2 ≤ dirs.toList.length ∧ ∀ d ∈ dirs.toList, PlainName d.1 ∧ WithSfv lower d.2
            · exact ha
            · exact absurd ⟨hnfo, hne, hp.1, fun hal => ha hal.2⟩ hpack
        · simp only [decide_eq_false h10, Bool.and_false, Bool.false_eq_true, if_false, Bool.not_true, false_iff]
          exact fun h => h ⟨hnfo, hne, hp.1, fun hal => h10 hal.1⟩
      · rw [Bool.not_eq_true] at hp
        rw [hp]
        simp only [Bool.false_and, Bool.false_eq_true, if_false, Bool.not_false, true_iff]
        intro hpack
        have : (dirs.arePack dig lower && !dirs.toList.isEmpty) = true := by
          rw [Bool.and_eq_true, arePack_iff]
          have h2 : dirs.toList ≠ [] := hpack.2.1
          exact ⟨hpack.2.2.1, by simpa using h2⟩
        rw [this] at hp
        simp at hp
    · rw [if_neg hnfo]
      rw [loneNfo_iff] at hnfo
      simp only [true_iff]
      exact fun hpack => hnfo hpack.1

/-- A release without such a file, and with anything but a single NFO file, has a folder for one of the disks
with an SFV file, or consists of two to ten folders with SFV files, none of which looks like another release.
Missing: titles after the number of a disk, as in `CD1-Live_N_Direct` (`cd_title_violated`). -/
theorem folders_release_partial (dig : Nat → Bool) (lower : Str → Str) (name : Str) (t : Tree) (h : ∀ f ∈ t.files, ¬ SceneFile lower f)
    (h1 : ∀ f, t.files = [f] → ¬ str ".nfo" <:+ lower f) :
    t.isRelease dig lower name = true ↔ ¬ NotReleaseName dig name ∧
      ((∃ d ∈ t.dirs.toList, diskFolder dig d.1 = true ∧ WithSfv lower d.2) ∨
       (t.dirs.toList.length ≤ 10 ∧ 2 ≤ t.dirs.toList.length ∧
         ∀ d ∈ t.dirs.toList, diskFolder dig d.1 = false ∧ (PlainName d.1 ∨ cdFolder dig d.1 = true) ∧ WithSfv lower d.2)) := by
  obtain ⟨files, dirs⟩ := t
  have hs : files.any (sceneFile lower) = false := by
    rw [← Bool.not_eq_true, List.any_eq_true]
    rintro ⟨f, hf, hsf⟩
    unfold sceneFile notScene at hsf
    rw [Bool.and_eq_true, Bool.or_eq_true, beq_iff_eq, beq_iff_eq] at hsf
    exact h f hf ⟨hsf.1, by simpa using hsf.2⟩
  have hfirst : (looksReleased dig lower (.mk files dirs)).1 = true ↔
      ((∃ d ∈ dirs.toList, diskFolder dig d.1 = true ∧ WithSfv lower d.2) ∨
       (dirs.toList.length ≤ 10 ∧ 2 ≤ dirs.toList.length ∧
         ∀ d ∈ dirs.toList, diskFolder dig d.1 = false ∧ (PlainName d.1 ∨ cdFolder dig d.1 = true) ∧ WithSfv lower d.2)) := by
    unfold looksReleased
    rw [show (Tree.mk files dirs).files = files from rfl, hs]
    simp only [Bool.false_eq_true, if_false, Bool.or_eq_true, List.any_eq_true, Bool.and_eq_true, hasSfv_iff, decide_eq_true_eq]
    have := count_all dirs.toList (fun d => !diskFolder dig d.1 && (noHyphen d.1 || cdFolder dig d.1)) (fun d => hasSfv lower d.2)
    simp only [Bool.and_eq_true, Bool.not_eq_true', Bool.or_eq_true, noHyphen_iff, hasSfv_iff, and_assoc] at this
    rw [show (Tree.mk files dirs).dirs = dirs from rfl, ← this]
    constructor
    · rintro (h | ⟨h1, h2, h3⟩)
      · exact Or.inl h
      · exact Or.inr ⟨h1, by omega, h2⟩
    · rintro (h | ⟨h1, h2, h3⟩)
      · exact Or.inl h
      · exact Or.inr ⟨h1, h3, by omega⟩
  by_cases hn : NotReleaseName dig name
  · rw [name_never dig lower hn]
    simp [hn]
  · have hn' := hn
    rw [← badName_iff, not_or, Bool.not_eq_true, Bool.not_eq_false] at hn'
    rw [show (Tree.mk files dirs).dirs = dirs from rfl, ← hfirst, Tree.isRelease]
    simp only [hn'.1, hn'.2, Bool.not_false, Bool.and_true, hn, not_false_eq_true, true_and]
    by_cases hf : (looksReleased dig lower (.mk files dirs)).1 = true
    · rw [hf]
      have : loneNfo lower files = false := by
        rw [← Bool.not_eq_true, loneNfo_iff]
        rintro ⟨f, hf, hn⟩
        exact h1 f hf hn
      simp [this]
    · rw [Bool.not_eq_true] at hf
      rw [hf]
      simp

/-- A release has an NFO or SFV file, or an SFV file in one of its folders. -/
theorem release_has (dig : Nat → Bool) (lower : Str → Str) (name : Str) (t : Tree) (h : t.isRelease dig lower name = true) :
    (∃ f ∈ t.files, SceneFile lower f) ∨ ∃ d ∈ t.dirs.toList, WithSfv lower d.2 := by
  obtain ⟨files, dirs⟩ := t
  rw [Tree.isRelease] at h
  have hl : (looksReleased dig lower (.mk files dirs)).1 = true := by
    cases hc : (looksReleased dig lower (.mk files dirs)).1 with
    | true => rfl
    | false => rw [hc] at h; simp at h
  clear h
  unfold looksReleased at hl
  split at hl
  · rename_i hs
    left
    obtain ⟨f, hf, hsf⟩ := List.any_eq_true.1 hs
    unfold sceneFile notScene at hsf
    rw [Bool.and_eq_true, Bool.or_eq_true, beq_iff_eq, beq_iff_eq] at hsf
    exact ⟨f, hf, hsf.1, by simpa using hsf.2⟩
  · right
    simp only [Bool.or_eq_true, List.any_eq_true, Bool.and_eq_true, hasSfv_iff, decide_eq_true_eq] at hl
    rcases hl with ⟨d, hd, _, hw⟩ | ⟨_, h2, h3⟩
    · exact ⟨d, hd, hw⟩
    · have := (count_all (Tree.mk files dirs).dirs.toList (fun d => !diskFolder dig d.1 && (noHyphen d.1 || cdFolder dig d.1)) (fun d => hasSfv lower d.2)).1 h2
      rw [← h2] at h3
      cases hc : (Tree.mk files dirs).dirs.toList with
      | nil => rw [hc] at h3; simp at h3
      | cons d l => exact ⟨d, by simp, hasSfv_iff.1 (this d (by rw [hc]; simp)).2⟩

/-! ### The names -/

theorem disk_names (dig : Nat → Bool) (s : Str) : diskFolder dig s = true ↔ ∃ w, DiskName dig w ∧ (s = w ∨ s = w ++ [0x0A]) :=
  test_lang (lang_disk dig) s

/-- Titles after the number of a disk are never recognised: the pattern asks for the text `{1-2}`. -/
theorem cd_title_violated (dig : Nat → Bool) (s : Str) (h : 0x7B ∉ s) : cdFolder dig s = false := by
  rw [← Bool.not_eq_true]
  intro hc
  unfold cdFolder at hc
  rw [test_iff] at hc
  obtain ⟨z, hz⟩ := hc
  have hl := lang_seq (lang_word (s := str "cd") (by decide)) (lang_seq (lang_alt (lang_opt (lang_cls rxDot)) (lang_word (s := str "_-_") (by decide)))
    (lang_seq (lang_cls dig) (lang_seq (lang_word (s := str "{1-2}") (by decide)) (lang_some rxDot))))
  obtain ⟨u, v, rfl, ⟨_, _, rfl, _, _, _, rfl, _, _, _, rfl, _, w, _, rfl, hw, _⟩, _⟩ := (hl _ _ _).1 hz
  apply h
  have : 0x7B ∈ w := by
    cases w with
    | nil => exact hw.elim
    | cons c w =>
      have : SameLetter c 0x7B := hw.1
      unfold SameLetter lowerA at this
      have hc : c = 0x7B := by
        rw [show 'A'.toNat = 0x41 from rfl, show 'Z'.toNat = 0x5A from rfl] at this
        rcases this with h | h | h | h
        · split at h
          · omega
          · exact h
        · omega
        · omega
        · omega
      simp [hc]
  simp [this]

/-! ### Examples and violations -/

/-- `isdigit` for ASCII. -/
private def dig (c : Nat) : Bool := 0x30 ≤ c && c ≤ 0x39

private def leaf (l : List String) : Tree := .mk (l.map str) .nil

private def dirs : List (String × Tree) → Dirs
  | [] => .nil
  | (n, t) :: l => .cons (str n) t (dirs l)

private def movie : Tree := leaf ["a.nfo", "a.sfv", "a.rar"]

/-- A folder with two movies, one of them on two disks, and a pack of episodes. -/
private def shelf : Tree := .mk [str "readme.txt"] (dirs [
  ("Show.S01-GRP", .mk [str "show.nfo"] (dirs [("Show.S01E01-GRP", movie), ("Show.S01E02-GRP", movie)])),
  ("A.Movie-GRP", .mk [str "a.nfo", str "a.sfv"] (dirs [("Sample", leaf ["a.avi"])])),
  ("B.Movie-GRP", .mk [] (dirs [("CD1", leaf ["b1.sfv", "b1.rar"]), ("CD2", leaf ["b2.sfv", "b2.rar"])]))])

set_option maxRecDepth 100000 in
example : releaseDirs dig id (str "/d") shelf =
    [str "/d/A.Movie-GRP", str "/d/B.Movie-GRP", str "/d/Show.S01-GRP/Show.S01E01-GRP", str "/d/Show.S01-GRP/Show.S01E02-GRP"] := by decide +kernel

/-- A release in a folder whose name begins with the name of the release before it is not found. -/
private def similar : Tree := .mk [] (dirs [("A-GRP", movie), ("A-GRP.more", .mk [] (dirs [("B-GRP", movie)]))])

set_option maxRecDepth 100000 in
/-- The folder `B-GRP` is a release and in no other one, but the path of the release `A-GRP` is in its path. -/
theorem search_complete_violated :
    TopRelease (fun n s => s.isRelease dig id n) (str "/d") similar [str "A-GRP.more", str "B-GRP"] ∧
    pathAt (str "/d") [str "A-GRP.more", str "B-GRP"] = str "/d/A-GRP.more/B-GRP" ∧
    releaseDirs dig id (str "/d") similar = [str "/d/A-GRP"] := by
  refine ⟨⟨⟨movie, rfl, by decide +kernel⟩, ?_⟩, by decide +kernel, by decide +kernel⟩
  intro k hk s hs
  have : k = 0 ∨ k = 1 := by simp only [List.length_cons, List.length_nil] at hk; omega
  rcases this with rfl | rfl
  · simp only [List.take_zero, folderAt, Option.some.injEq] at hs
    subst hs
    decide +kernel
  · have h2 : folderAt similar [str "A-GRP.more"] = some (.mk [] (dirs [("B-GRP", movie)])) := by rfl
    rw [show [str "A-GRP.more", str "B-GRP"].take 1 = [str "A-GRP.more"] from rfl] at hs ⊢
    rw [h2, Option.some.injEq] at hs
    subst hs
    decide +kernel

set_option maxRecDepth 100000 in
/-- An old music release without an NFO file is one release, with `imdb.nfo` each of its folders is one. -/
theorem stray_nfo_splits_violated :
    releaseDirs dig id (str "/d") (.mk [] (dirs [("Nine-1999-aPC", .mk [] (dirs [("Left", leaf ["l.sfv", "l.mp3"]), ("Right", leaf ["r.sfv", "r.mp3"])]))])) =
      [str "/d/Nine-1999-aPC"] ∧
    releaseDirs dig id (str "/d") (.mk [] (dirs [("Nine-1999-aPC", .mk [str "imdb.nfo"] (dirs [("Left", leaf ["l.sfv", "l.mp3"]), ("Right", leaf ["r.sfv", "r.mp3"])]))])) =
      [str "/d/Nine-1999-aPC/Left", str "/d/Nine-1999-aPC/Right"] := by decide +kernel

set_option maxRecDepth 100000 in
/-- The release that the comment in the code is about: each of its disks becomes a release. -/
theorem cd_titles_split_violated :
    releaseDirs dig id (str "/d") (.mk [] (dirs [("San_Quinn-4CD-2003-KPT", .mk [] (dirs [("CD1-Dont_Cross-Me", leaf ["a.sfv", "a.mp3"]), ("CD2-Live_N-Direct", leaf ["b.sfv", "b.mp3"])]))])) =
      [str "/d/San_Quinn-4CD-2003-KPT/CD1-Dont_Cross-Me", str "/d/San_Quinn-4CD-2003-KPT/CD2-Live_N-Direct"] := by decide +kernel

/-- The hypotheses of the theorems on the search. -/
example : RootOk (str "/d") := by unfold RootOk; decide

set_option maxRecDepth 100000 in
example : NamesOk shelf ∧ ¬ LooksInside (fun n s => s.isRelease dig id n) (str "/d") shelf :=
  ⟨namesOk_check (by decide +kernel), notInside_check (by decide +kernel)⟩

/-- The folders of the shelf: a movie, one on two disks, and a pack. -/
example : ∃ f ∈ movie.files, SceneFile id f := ⟨str "a.nfo", by decide +kernel, by unfold SceneFile; decide +kernel⟩

example : NotReleaseName dig (str "DVD_2.Bonus") ∧ NotReleaseName dig (str "Subs") ∧ NotReleaseName dig (str "New folder") :=
  ⟨badName_iff.1 (Or.inl (by decide +kernel)), badName_iff.1 (Or.inl (by decide +kernel)), badName_iff.1 (Or.inr (by decide +kernel))⟩

example : ¬ NotReleaseName dig (str "A.Movie-GRP") := by
  rw [← badName_iff]
  decide +kernel

end Rescene.Props
