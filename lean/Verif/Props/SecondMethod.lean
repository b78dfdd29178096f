import Verif.Model.SecondMethod
import Verif.Props.RarSets
/-
C106: the second method for compressed files: with which settings the archive of all files is
made, of which files, and what is served from it.
-/
namespace Rescene.Props
open Rescene Rescene.Spec

/-- The number of threads an archive was made with; one when it was not set. -/
def threadsOf (a : RarArgs) : Int := a.threads.getD 1

theorem threadCount_eq (a : RarArgs) : a.threadCount = threadsOf a := by
  unfold RarArgs.threadCount threadsOf
  cases a.threads <;> rfl

theorem mostThreads_spec : ∀ (known : SettledFiles) (cur : RarVersion × RarArgs),
    (mostThreads cur known = cur ∨ ∃ n, (n, mostThreads cur known) ∈ known ∧ threadsOf cur.2 < threadsOf (mostThreads cur known).2) ∧
    threadsOf cur.2 ≤ threadsOf (mostThreads cur known).2 ∧
    ∀ x ∈ known, threadsOf x.2.2 ≤ threadsOf (mostThreads cur known).2 := by
  intro known
  induction known with
  | nil => intro cur; exact ⟨.inl rfl, Int.le_refl _, by intro x h; cases h⟩
  | cons y ys ih =>
    intro cur
    rw [mostThreads]
    simp only [threadCount_eq]
    split
    · rename_i hlt
      obtain ⟨h1, h2, h3⟩ := ih y.2
      refine ⟨.inr ?_, by omega, ?_⟩
      · rcases h1 with h1 | ⟨n, h1, h4⟩
        · exact ⟨y.1, by rw [h1]; simp, by omega⟩
        · exact ⟨n, List.mem_cons_of_mem _ h1, by omega⟩
      · intro x hx
        rcases List.mem_cons.mp hx with rfl | hx
        · exact h2
        · exact h3 x hx
    · rename_i hlt
      obtain ⟨h1, h2, h3⟩ := ih cur
      refine ⟨?_, h2, ?_⟩
      · rcases h1 with h1 | ⟨n, h1, h4⟩
        · exact .inl h1
        · exact .inr ⟨n, List.mem_cons_of_mem _ h1, h4⟩
      · intro x hx
        rcases List.mem_cons.mp hx with rfl | hx
        · omega
        · exact h3 x hx

theorem lookup_mem_pair {β : Type} {n : Str} {g : β} : ∀ {l : List (Str × β)}, l.lookup n = some g → (n, g) ∈ l := by
  intro l
  induction l with
  | nil => intro h; cases h
  | cons x xs ih =>
    intro h
    obtain ⟨m, v⟩ := x
    rw [List.lookup_cons] at h
    split at h
    · rename_i he
      have : n = m := by simpa using he
      cases h
      subst this
      simp
    · exact List.mem_cons_of_mem _ (ih h)

/-- C106: the settings for the archive of all files are the ones of a file that was made before, and
none was made with more threads.  They are the ones of the file before this one unless another
needed more threads than that. -/
theorem second_pick (known : SettledFiles) (prev : Str) (hk : known ≠ []) :
    ∃ n g, secondSettings known prev = .ok g ∧ (n, g) ∈ known ∧ (∀ x ∈ known, threadsOf x.2.2 ≤ threadsOf g.2) ∧
      ∀ p, known.lookup prev = some p → p = g ∨ threadsOf p.2 < threadsOf g.2 := by
  cases known with
  | nil => exact absurd rfl hk
  | cons first rest =>
    unfold secondSettings
    dsimp only
    cases hl : (first :: rest).lookup prev with
    | none =>
      dsimp only
      obtain ⟨h1, h2, h3⟩ := mostThreads_spec (first :: rest) first.2
      rcases h1 with h1 | ⟨n, h1, _⟩
      · exact ⟨first.1, _, rfl, by rw [h1]; simp, h3, by intro p h; cases h⟩
      · exact ⟨n, _, rfl, h1, h3, by intro p h; cases h⟩
    | some g =>
      dsimp only
      obtain ⟨h1, h2, h3⟩ := mostThreads_spec (first :: rest) g
      rcases h1 with h1 | ⟨n, h1, h4⟩
      · exact ⟨prev, _, rfl, by rw [h1]; exact lookup_mem_pair hl, h3, by intro p h; cases h; exact .inl h1.symm⟩
      · exact ⟨n, _, rfl, h1, h3, by intro p h; cases h; exact .inr h4⟩

theorem secondFiles_spec (locate : PackedPart → Res Str) : ∀ (blocks : List PackedPart) (fs : List Str),
    secondFiles locate blocks = .ok fs ↔ (blocks.filter fun p => p.psize ≠ 0).map locate = fs.map .ok := by
  intro blocks
  induction blocks with
  | nil => intro fs; cases fs <;> simp [secondFiles]
  | cons p ps ih =>
    intro fs
    rw [secondFiles]
    by_cases hp : p.psize = 0
    · simp only [hp, ne_eq, not_true_eq_false, ↓reduceIte, ih, decide_false, Bool.false_eq_true, not_false_eq_true, List.filter_cons_of_neg]
    · rw [if_pos hp, List.filter_cons_of_pos (by simpa using hp), List.map_cons]
      simp only [bind_eq_ok, pure_eq_ok, Except.ok.injEq]
      constructor
      · rintro ⟨f, h1, r, h2, rfl⟩
        rw [List.map_cons, h1, (ih r).mp h2]
      · intro h
        cases fs with
        | nil => simp at h
        | cons f r =>
          rw [List.map_cons, List.cons.injEq] at h
          exact ⟨f, h.1, r, (ih r).mpr h.2, rfl⟩

theorem arglist_all (a : RarArgs) (v : RarVersion) (h1 : a.level ≠ []) (h2 : a.dict ≠ []) (h3 : a.archive ≠ [])
    (h4 : a.all ≠ []) :
    a.arglist v = command v a.level a.dict a.solid a.threads a.split a.archive a.all := by
  have := arglist_command { a with all := [], before := [], store := a.all, after := [] } v h1 h2 h3 rfl
  simp only [List.nil_append, List.append_nil] at this
  rw [← this]
  unfold RarArgs.arglist
  simp [h4]

/-- C106: with the second method, the data that is served for a file that is no directory has
exactly the size of the file's parts in the set, and it is what `rar` packs for it in an archive of all the files
of the set with data, each found in the input folder.  The archive is made by the executable and with the
compression settings that were good for an earlier file, the one before unless another needed more
threads, in volumes of the given size. -/
theorem second_serves (s : MtSettings) (pack : RarVersion → List Str → Str → Res Bytes) (known : SettledFiles)
    (e : Err) (volume : Nat) (out : Str) (locate : PackedPart → Res Str) (i : Nat) (b : PackedPart) (blocks : List PackedPart)
    (x : Option SecondState × Bytes) (hout : out ≠ []) (hdir : b.flags &&& 0xE0 ≠ 0xE0)
    (hgood : ∀ y ∈ known, y.2.2.level ≠ [] ∧ y.2.2.dict ≠ [] ∧ y.2.2.all = [])
    (hdata : ∃ p ∈ blocks, p.psize ≠ 0)
    (h : factory s pack known none (.error e) volume out locate i b blocks = .ok x) :
    (e = .other ∨ e = .valueError) ∧ x.2.length = fullSize b blocks ∧
    ∃ n v a threads files, (n, v, a) ∈ known ∧ (∀ y ∈ known, threadsOf y.2.2 ≤ threadsOf a) ∧
      (∀ j q p, i = j + 1 → blocks[j]? = some q → known.lookup q.name = some p → p = (v, a) ∨ threadsOf p.2 < threadsOf a) ∧
      (blocks.filter fun p => p.psize ≠ 0).map locate = files.map .ok ∧
      pack v (command v a.level a.dict a.solid threads volume out files) (basename b.name) = .ok x.2 := by
  unfold factory at h
  dsimp only at h
  split at h
  · rename_i hc
    obtain ⟨he, hk⟩ := hc
    refine ⟨he, ?_⟩
    simp only [bind_eq_ok, pure_eq_ok, Except.ok.injEq] at h
    obtain ⟨g, hg, y, hy, rfl⟩ := h
    unfold secondArchive at hg
    simp only [bind_eq_ok, pure_eq_ok, Except.ok.injEq] at hg
    obtain ⟨g0, h0, files, hf, rfl⟩ := hg
    obtain ⟨n, g1, h1, hmem, hmax, hprev⟩ := second_pick known (previousBlock i b blocks).name hk
    rw [h0] at h1
    cases h1
    rw [secondFiles_spec] at hf
    have hne : files ≠ [] := by
      rintro rfl
      obtain ⟨p, hp, hz⟩ := hdata
      have : p ∈ blocks.filter fun p => p.psize ≠ 0 := List.mem_filter.mpr ⟨hp, by simpa using hz⟩
      rw [List.map_nil, List.map_eq_nil_iff] at hf
      rw [hf] at this
      cases this
    unfold setFile at hy
    rw [if_neg hdir] at hy
    dsimp only at hy
    split at hy
    · cases hy
    · rename_i a d hs
      cases hy
      obtain ⟨hl, hget, c, rfl⟩ := second_method_size _ _ _ _ _ _ _ _ hs
      refine ⟨hl, n, g0.1, g0.2, c, files, hmem, hmax, ?_, hf, ?_⟩
      · intro j q p hi hq hp
        subst hi
        refine hprev p ?_
        unfold previousBlock
        dsimp only
        rw [hq]
        exact hp
      have hg := hgood _ hmem
      have hall : g0.2.all = [] := hg.2.2
      rw [arglist_all] at hget
      · simpa [hall] using hget
      · exact hg.1
      · exact hg.2.1
      · exact hout
      · simp [hne]
  · cases h

/-- C106: when the search finds nothing or the size is wrong, another file was made before,
and all files of the set are found, then the file is served whenever `rar` makes an archive of all
files in which it has the right size. -/
theorem second_used (s : MtSettings) (pack : RarVersion → List Str → Str → Res Bytes) (known : SettledFiles)
    (e : Err) (volume : Nat) (out : Str) (locate : PackedPart → Res Str) (i : Nat) (b : PackedPart) (blocks : List PackedPart)
    (files : List Str) (hout : out ≠ []) (hdir : b.flags &&& 0xE0 ≠ 0xE0)
    (hgood : ∀ y ∈ known, y.2.2.level ≠ [] ∧ y.2.2.dict ≠ [] ∧ y.2.2.all = [])
    (he : e = .other ∨ e = .valueError) (hk : known ≠ []) (hne : files ≠ [])
    (hfiles : (blocks.filter fun p => p.psize ≠ 0).map locate = files.map .ok)
    (hpack : ∀ y ∈ known, ∃ d, d.length = fullSize b blocks ∧
      pack y.2.1 (command y.2.1 y.2.2.level y.2.2.dict y.2.2.solid y.2.2.threads volume out files) (basename b.name) = .ok d) :
    ∃ st d, factory s pack known none (.error e) volume out locate i b blocks = .ok (some st, d) ∧ st.blocks = blocks := by
  obtain ⟨n, g, h1, hmem, _, _⟩ := second_pick known (previousBlock i b blocks).name hk
  have hf := (secondFiles_spec locate blocks files).mpr hfiles
  obtain ⟨d, hl, hp⟩ := hpack _ hmem
  have hg := hgood _ hmem
  have hall : g.2.all = [] := hg.2.2
  have ha := arglist_all { g.2 with split := volume, archive := out, all := g.2.all ++ files } g.1 hg.1 hg.2.1 hout (by simp [hne])
  simp only [hall, List.nil_append] at ha
  refine ⟨⟨g.1, { g.2 with split := volume, archive := out, all := files }, blocks⟩, d, ?_, rfl⟩
  unfold factory
  dsimp only
  rw [if_pos ⟨he, hk⟩]
  unfold secondArchive setFile
  rw [h1, hf]
  simp only [ok_bind, pure_eq_ok, if_neg hdir, hall, List.nil_append]
  unfold secondMethod
  simp only [ha, hp, hl, ne_eq, not_true_eq_false, ↓reduceIte]
  rfl

/-- C106: a file that `rar` makes on its own is served from its own archive, and when nothing was
made before or the error is another one, it is not covered up. -/
theorem second_not_used (s : MtSettings) (pack : RarVersion → List Str → Str → Res Bytes) (known : SettledFiles)
    (regular : Res Bytes) (volume : Nat) (out : Str) (locate : PackedPart → Res Str) (i : Nat) (b : PackedPart) (blocks : List PackedPart)
    (h : (∃ d, regular = .ok d) ∨ known = [] ∨ ∃ e, regular = .error e ∧ e ≠ .other ∧ e ≠ .valueError) :
    factory s pack known none regular volume out locate i b blocks = regular.map fun d => (none, d) := by
  unfold factory
  cases regular with
  | ok d => rfl
  | error e =>
    dsimp only
    rw [if_neg]
    · rfl
    · rintro ⟨h1, h2⟩
      rcases h with ⟨_, h⟩ | h | ⟨e', h, h3, h4⟩
      · cases h
      · exact h2 h
      · cases h
        rcases h1 with h1 | h1
        · exact h3 h1
        · exact h4 h1

/-- C106: once it is used, no executable is searched any more: whatever the search would give, later
files come from the archive of all files of the set for which it was made. -/
theorem second_stays (s : MtSettings) (pack : RarVersion → List Str → Str → Res Bytes) (known : SettledFiles) (st : SecondState)
    (regular : Res Bytes) (volume : Nat) (out : Str) (locate : PackedPart → Res Str) (i : Nat) (b : PackedPart) (blocks : List PackedPart)
    (x : Option SecondState × Bytes) (hdir : b.flags &&& 0xE0 ≠ 0xE0)
    (h : factory s pack known (some st) regular volume out locate i b blocks = .ok x) :
    x.2.length = fullSize b st.blocks ∧ ∃ a, x.1 = some { st with args := a } ∧ (∃ c, a = { st.args with threads := c }) ∧
      pack st.version (a.arglist st.version) (basename b.name) = .ok x.2 := by
  unfold factory at h
  simp only [bind_eq_ok, pure_eq_ok, Except.ok.injEq] at h
  obtain ⟨y, hy, rfl⟩ := h
  unfold setFile at hy
  rw [if_neg hdir] at hy
  split at hy
  · cases hy
  · rename_i a d hs
    cases hy
    obtain ⟨hl, hget, hc⟩ := second_method_size _ _ _ _ _ _ _ _ hs
    exact ⟨hl, a, rfl, hc, hget⟩

/-- C106: a later file of another set is not in that archive.  Although it would be made on its own,
it is not rebuilt. -/
theorem second_other_set (s : MtSettings) (pack : RarVersion → List Str → Str → Res Bytes) (known : SettledFiles) (st : SecondState)
    (d : Bytes) (volume : Nat) (out : Str) (locate : PackedPart → Res Str) (i : Nat) (b : PackedPart) (blocks : List PackedPart)
    (hdir : b.flags &&& 0xE0 ≠ 0xE0) (hmiss : ∀ v c, pack v c (basename b.name) = .error .attrError) :
    factory s pack known (some st) (.ok d) volume out locate i b blocks = .error .attrError ∧
    factory s pack known none (.ok d) volume out locate i b blocks = .ok (none, d) := by
  constructor
  · unfold factory setFile
    dsimp only
    rw [if_neg hdir]
    unfold secondMethod
    rw [hmiss]
    rfl
  · rfl

example : ∀ (v : RarVersion) (c : List Str),
    (fun _ _ n => if n = str "a.idx" then .ok [1] else .error .attrError : RarVersion → List Str → Str → Res Bytes) v c (basename exB.name)
      = .error .attrError := by
  intro v c
  have : basename exB.name ≠ str "a.idx" := by decide
  simp [this]

/-- C106: a file in two parts is given to `rar` twice. -/
theorem second_twice : secondFiles (fun p => .ok (str "/in/" ++ p.name)) [exA1, exA2, exB] =
    .ok [str "/in/a.idx", str "/in/a.idx", str "/in/b.sub"] := by decide

/-- C106, as far as it holds: when no file has two parts, every file with data is given once. -/
theorem second_once_partial (locate : PackedPart → Res Str) (blocks : List PackedPart) (files : List Str)
    (hone : blocks.Pairwise fun p q => locate p ≠ locate q) (h : secondFiles locate blocks = .ok files) : files.Nodup := by
  rw [secondFiles_spec] at h
  have h1 : ((blocks.filter fun p => p.psize ≠ 0).map locate).Pairwise (· ≠ ·) :=
    List.pairwise_map.mpr (hone.filter _)
  rw [h] at h1
  have h2 := List.pairwise_map.mp h1
  exact h2.imp fun hne he => hne (by rw [he])

/-- Parameters that were good for a file. -/
def exSettled (threads : Option Int) (all : List Str) : RarArgs :=
  ⟨str "-m3", str "-mdA", false, threads, 0, str "p.rar", [], [str "/in/a.idx"], [], all⟩

/-- C106: when the second method was tried in vain before, the archive for the next release has the
files of the earlier release too. -/
theorem second_leftover :
    secondArchive [(str "a.idx", exRar420, exSettled (some 2) [])] 100 (str "o.rar") (fun p => .ok (str "/in/" ++ p.name)) 0 exB [exB] =
      .ok (exRar420, { exSettled (some 2) [] with split := 100, archive := str "o.rar", all := [str "/in/b.sub"] }) ∧
    secondArchive [(str "a.idx", exRar420, { exSettled (some 2) [] with split := 100, archive := str "o.rar", all := [str "/in/b.sub"] })]
        200 (str "q.rar") (fun p => .ok (str "/new/" ++ p.name)) 0 exA1 [exA1] =
      .ok (exRar420, { exSettled (some 2) [] with split := 200, archive := str "q.rar", all := [str "/in/b.sub", str "/new/a.idx"] }) := by
  decide

/-- What `rar` packs in the examples: with four threads it is right. -/
def exPack (_ : RarVersion) (c : List Str) (n : Str) : Res Bytes :=
  if str "-mt4" ∈ c ∧ n = str "b.sub" then .ok [1, 2, 3, 4, 5, 6, 7] else .ok [1]

set_option maxRecDepth 4000 in
/-- The hypotheses of `second_serves` hold for a set of two files: the second comes from the archive
of both, made with four threads. -/
theorem exSecondServed : ∃ x, factory {} exPack [(str "a.idx", exRar420, exSettled (some 2) [])] none (.error .other) 100 (str "o.rar")
    (fun p => .ok (str "/in/" ++ p.name)) 1 exB [exA1, exB] = .ok x ∧ x.2 = [1, 2, 3, 4, 5, 6, 7] := by
  refine ⟨(some ⟨exRar420, { exSettled (some 4) [str "/in/a.idx", str "/in/b.sub"] with split := 100, archive := str "o.rar" }, [exA1, exB]⟩,
    [1, 2, 3, 4, 5, 6, 7]), by decide +kernel, rfl⟩

example : str "o.rar" ≠ [] ∧ exB.flags &&& 0xE0 ≠ 0xE0 ∧ (∃ p ∈ [exA1, exB], p.psize ≠ 0) ∧
    ∀ y ∈ [(str "a.idx", exRar420, exSettled (some 2) [])], y.2.2.level ≠ [] ∧ y.2.2.dict ≠ [] ∧ y.2.2.all = [] := by decide

example : [exA1, exB].Pairwise (fun p q => (fun p => (.ok (str "/in/" ++ p.name) : Res Str)) p ≠ (fun p => .ok (str "/in/" ++ p.name)) q) := by
  decide

example : ∃ st d, factory {} (fun _ _ _ => .ok [1, 2, 3, 4, 5, 6, 7]) [(str "a.idx", exRar420, exSettled (some 2) [])] none
    (.error .valueError) 100 (str "o.rar") (fun p => .ok (str "/in/" ++ p.name)) 1 exB [exA1, exB] = .ok (some st, d) ∧
    st.blocks = [exA1, exB] :=
  second_used {} _ _ .valueError 100 _ _ 1 exB [exA1, exB] [str "/in/a.idx", str "/in/b.sub"] (by decide) (by decide) (by decide)
    (.inr rfl) (by decide) (by decide) (by decide) (by
      intro y _
      exact ⟨[1, 2, 3, 4, 5, 6, 7], by decide, rfl⟩)

/-- The file before this one gives the settings; the file with more threads wins. -/
example : secondSettings [(str "c", exRar300, exSettled none []), (str "a.idx", exRar420, exSettled (some 2) [])] (str "c") =
    .ok (exRar420, exSettled (some 2) []) ∧
    secondSettings [(str "c", exRar300, exSettled none []), (str "a.idx", exRar420, exSettled (some 1) [])] (str "c") =
    .ok (exRar300, exSettled none []) := by decide

end Rescene.Props
