import Verif.Spec.Retag
import Verif.Props.Extract
/-
C86: retag.py finds the tracks and restores all of them.
-/
namespace Rescene.Props
open Rescene Rescene.Spec

/-! ### The search for the file -/

theorem sameParts_refl (lower : Str → Str) (l : List Str) : SameParts lower l l := by
  induction l with
  | nil => exact .nil
  | cons a l ih => exact .cons rfl ih

theorem posixJoin_cons (d a : Str) (l : List Str) : posixJoin d (a :: l) = posixJoin (posixJoin2 d a) l := rfl

theorem fixCaseLoop_sound {w : TagWorld} {fs : FS} (hl : ∀ d l x, w.listdir fs d = .ok l → x ∈ l → w.existing fs (posixJoin2 d x) = true)
    (parts : List Str) : ∀ {d p : Path}, (parts = [] → w.existing fs d = true) → fixCaseLoop w fs d parts = .ok p → p ≠ [] →
      w.existing fs p = true ∧ ∃ parts', SameParts w.lower parts' parts ∧ p = posixJoin d parts' := by
  induction parts with
  | nil =>
    intro d p hd h _
    simp only [fixCaseLoop, Except.ok.injEq] at h
    subst h
    exact ⟨hd rfl, [], .nil, rfl⟩
  | cons a rest ih =>
    intro d p _ h hp
    unfold fixCaseLoop at h
    split at h
    · rename_i he
      obtain ⟨h1, parts', h2, h3⟩ := ih (fun _ => he) h hp
      exact ⟨h1, a :: parts', .cons rfl h2, h3⟩
    · simp only [bind_eq_ok] at h
      obtain ⟨listing, hli, h⟩ := h
      split at h
      · rename_i l hf
        have hmem := List.mem_of_find?_eq_some hf
        have hlow := List.find?_some hf
        obtain ⟨h1, parts', h2, h3⟩ := ih (fun _ => hl _ _ _ hli hmem) h hp
        exact ⟨h1, l :: parts', .cons (by simpa using hlow) h2, h3⟩
      · simp only [pure_eq_ok, Except.ok.injEq] at h
        exact absurd h.symm hp

/-- C86: what is found exists, and differs from what was asked for in upper and lower case only. -/
theorem join_fix_case_sound {w : TagWorld} {fs : FS} {base p : Path} {parts : List Str}
    (hl : ∀ d l x, w.listdir fs d = .ok l → x ∈ l → w.existing fs (posixJoin2 d x) = true) (hne : parts ≠ [])
    (h : joinFixCase w fs base parts = .ok p) (hp : p ≠ []) :
    w.existing fs p = true ∧ ∃ parts', SameParts w.lower parts' parts ∧ p = posixJoin base parts' := by
  unfold joinFixCase at h
  split at h
  · rename_i he
    simp only [Except.ok.injEq] at h
    subst h
    exact ⟨he, parts, sameParts_refl _ _, rfl⟩
  · exact fixCaseLoop_sound hl parts (fun h0 => absurd h0 hne) h hp

/-- C86: a path that exists as it is, is not changed. -/
theorem join_fix_case_exact {w : TagWorld} {fs : FS} {base : Path} {parts : List Str} (h : w.existing fs (posixJoin base parts) = true) :
    joinFixCase w fs base parts = .ok (posixJoin base parts) := by
  simp [joinFixCase, h]

theorem find_unique {lower : Str → Str} {l : List Str} {x p : Str} (hx : x ∈ l) (hlow : lower x = lower p)
    (hu : ∀ y ∈ l, lower x = lower y → x = y) : l.find? (fun a => lower a == lower p) = some x := by
  cases hf : l.find? fun a => lower a == lower p with
  | none => have := List.find?_eq_none.1 hf x hx; simp [hlow] at this
  | some y =>
    have h1 := List.mem_of_find?_eq_some hf
    have h2 := List.find?_some hf
    rw [hu y h1 (by simp only [beq_iff_eq] at h2; rw [hlow, h2])]

theorem fixCaseLoop_complete {w : TagWorld} {fs : FS} (ht : TreeLike w fs) (hn : NoTwins w fs) {base : Path} {real : List Str}
    (h : Leads w fs base real) : ∀ {parts : List Str}, SameParts w.lower real parts → (∀ x ∈ parts, OneName x) →
      fixCaseLoop w fs base parts = .ok (posixJoin base real) := by
  induction h with
  | nil => intro parts hs _; cases hs; rfl
  | cons hx hli hmem _ ih =>
    intro parts hs hpl
    cases hs with
    | cons hlow hs =>
      rename_i d x l _ _ b m
      unfold fixCaseLoop
      split
      · rename_i he
        obtain ⟨l', hl', hb⟩ := (ht d b (hpl b (by simp))).1 he
        rw [hli] at hl'
        injection hl' with hl'
        subst hl'
        have hxb := hn d l x b hli hmem hb hlow
        subst hxb
        exact ih hs fun y hy => hpl y (by simp [hy])
      · rw [hli, ok_bind, find_unique hmem hlow fun y hy hxy => hn d l x y hli hmem hy hxy]
        exact ih hs fun y hy => hpl y (by simp [hy])

theorem leads_of_exists {w : TagWorld} {fs : FS} (ht : TreeLike w fs) (hf : ∀ d l, w.listdir fs d = .ok l → w.existing fs d = true)
    {base : Path} {parts : List Str} (hpl : ∀ x ∈ parts, OneName x) (h : w.existing fs (posixJoin base parts) = true) :
    Leads w fs base parts := by
  have key : ∀ (rest : List Str) (d : Path), (∀ x ∈ rest, OneName x) → w.existing fs (posixJoin d rest) = true →
      w.existing fs d = true ∧ Leads w fs d rest := by
    intro rest
    induction rest with
    | nil => intro d _ h; exact ⟨h, .nil⟩
    | cons a rest ih =>
      intro d hpl h
      obtain ⟨h1, h2⟩ := ih (posixJoin2 d a) (fun x hx => hpl x (by simp [hx])) h
      obtain ⟨l, hl, ha⟩ := (ht d a (hpl a (by simp))).1 h1
      exact ⟨hf d l hl, .cons (hpl a (by simp)) hl ha h2⟩
  exact (key parts base hpl h).2

theorem leads_unique {w : TagWorld} {fs : FS} (hn : NoTwins w fs) {base : Path} {a b : List Str} (ha : Leads w fs base a) :
    Leads w fs base b → SameParts w.lower a b → a = b := by
  intro hb hs
  induction ha generalizing b with
  | nil => cases hs; rfl
  | cons hx hli hmem _ ih =>
    cases hs with
    | cons hlow hs =>
      cases hb with
      | cons hx' hli' hmem' hb =>
        rw [hli] at hli'
        injection hli' with hli'
        subst hli'
        have := hn _ _ _ _ hli hmem hmem' hlow
        subst this
        rw [ih hb hs]

/-- C86: a file that is there under a name in other case is found, in a tree without names that differ in case only. -/
theorem join_fix_case_complete_partial {w : TagWorld} {fs : FS} (ht : TreeLike w fs) (hn : NoTwins w fs)
    (hf : ∀ d l, w.listdir fs d = .ok l → w.existing fs d = true) {base : Path} {real parts : List Str} (h : Leads w fs base real)
    (hs : SameParts w.lower real parts) (hpl : ∀ x ∈ parts, OneName x) :
    joinFixCase w fs base parts = .ok (posixJoin base real) := by
  unfold joinFixCase
  split
  · rename_i he
    rw [leads_unique hn h (leads_of_exists ht hf hpl he) hs]
  · exact fixCaseLoop_complete ht hn h hs hpl

/-! ### The tracks -/

/-- C86: a track counts as fixed only when its SRS is one of music, `srs` was run with a file of the name of the track, for the output
folder that the SRS is in, and reported success. -/
theorem fixed_rebuilt {w : TagWorld} {srs outDir inDir m : Path} {fs fs' : FS}
    (h : fixTagging w srs outDir inDir fs = (fs', .ok (.fixed m))) :
    ∃ content name rel, fs srs = some content ∧ srsInfo w.dig w.lower srs content = .ok (some name) ∧ relpath w.cwd srs outDir = .ok rel ∧
      isFileIn fs m = true ∧ (joinFixCase w fs inDir [name] = .ok m ∨ joinFixCase w fs inDir (splitOn 0x2F (dirname rel) ++ [name]) = .ok m) ∧
      w.srs srs m (posixJoin2 outDir (dirname rel)) fs = (fs', .returned) := by
  unfold fixTagging at h
  split at h
  · simp at h
  · rename_i content hc
    split at h
    · simp at h
    · simp at h
    · rename_i name hi
      split at h
      · simp at h
      · rename_i rel hrel
        split at h
        · simp at h
        · simp at h
        · rename_i m' hm
          split at h
          · rename_i fs2 hsrs
            simp only [Prod.mk.injEq, Except.ok.injEq, TagStep.fixed.injEq] at h
            obtain ⟨h1, h2⟩ := h
            subst h1; subst h2
            refine ⟨content, name, rel, hc, hi, hrel, ?_, ?_, hsrs⟩
            · unfold findMusic at hm
              simp only [bind_eq_ok] at hm
              obtain ⟨m1, _, hm⟩ := hm
              split at hm
              · rename_i hf
                simp only [pure_eq_ok, Except.ok.injEq, Option.some.injEq] at hm
                exact hm ▸ hf
              · simp only [bind_eq_ok] at hm
                obtain ⟨m2, _, hm⟩ := hm
                split at hm
                · rename_i hf
                  simp only [pure_eq_ok, Except.ok.injEq, Option.some.injEq] at hm
                  exact hm ▸ hf
                · simp at hm
            · unfold findMusic at hm
              simp only [bind_eq_ok] at hm
              obtain ⟨m1, hm1, hm⟩ := hm
              split at hm
              · simp only [pure_eq_ok, Except.ok.injEq, Option.some.injEq] at hm
                exact .inl (hm ▸ hm1)
              · simp only [bind_eq_ok] at hm
                obtain ⟨m2, hm2, hm⟩ := hm
                split at hm
                · simp only [pure_eq_ok, Except.ok.injEq, Option.some.injEq] at hm
                  exact .inr (hm ▸ hm2)
                · simp at hm
          · simp at h
          · simp at h

/-- What the theorems need of the SRR and of `srs`: every SRS has a path of its own, which is free; `srs` leaves the SRR and the SRS files
alone and is not interrupted. -/
structure TagSetup (w : TagWorld) (srr outDir : Path) (c : List Entry) (file : Bytes) (names : List Str) (dest : Str → Path)
    (data : Str → Bytes) (fs : FS) : Prop where
  contents : Contents file c
  here : fs srr = some file
  ask : ∀ p, w.ask p = false
  only : ∀ n ∈ names, selection ⟨outDir, true, n, none⟩ c = some [(dest n, data n)]
  free : ∀ n ∈ names, fs (dest n) = none
  frame : ∀ s m o fs, (w.srs s m o fs).1 srr = fs srr ∧ ∀ n ∈ names, (w.srs s m o fs).1 (dest n) = fs (dest n)
  calm : ∀ s m o fs msg, (w.srs s m o fs).2 ≠ .raised .keyboard msg

theorem fix_music {w : TagWorld} {srs outDir inDir : Path} {fs : FS} {content : Bytes} {name : Str} (hc : fs srs = some content)
    (hi : srsInfo w.dig w.lower srs content = .ok (some name)) (hcalm : ∀ s m o fs msg, (w.srs s m o fs).2 ≠ .raised .keyboard msg) :
    ∃ fs' s, fixTagging w srs outDir inDir fs = (fs', .ok s) ∧ ((∃ m, s = .fixed m) ∨ ∃ m, s = .failed m) ∧
      (fs' = fs ∨ ∃ m o, fs' = (w.srs srs m o fs).1) := by
  unfold fixTagging
  simp only [hc, hi]
  split
  · exact ⟨_, _, rfl, .inr ⟨_, rfl⟩, .inl rfl⟩
  · split
    · exact ⟨_, _, rfl, .inr ⟨_, rfl⟩, .inl rfl⟩
    · exact ⟨_, _, rfl, .inr ⟨_, rfl⟩, .inl rfl⟩
    · rename_i m hm
      split
      · rename_i fs2 hsrs
        exact ⟨_, _, rfl, .inl ⟨_, rfl⟩, .inr ⟨m, _, by rw [hsrs]⟩⟩
      · rename_i fs2 msg hsrs
        exact absurd (by rw [hsrs]) (hcalm srs m _ fs msg)
      · rename_i fs2 e _ _ hsrs
        exact ⟨_, _, rfl, .inr ⟨_, rfl⟩, .inr ⟨m, _, by rw [hsrs]⟩⟩

theorem extract_single {w : TagWorld} {srr outDir : Path} {c : List Entry} {file : Bytes} {names : List Str} {dest : Str → Path}
    {data : Str → Bytes} {fs : FS} (hs : TagSetup w srr outDir c file names dest data fs) {n : Str} (hn : n ∈ names) :
    extractFiles srr w.ask ⟨outDir, true, n, none⟩ fs = (fs.set (dest n) (some (data n)), .ok [(dest n, true)]) := by
  obtain ⟨fs', rs, h1, h2, h3, h4⟩ := extract_result (hs.ask srr) hs.here hs.contents (hs.only n hn)
  have h4 := h4 [] (dest n) (data n) [] rfl (by simp) (hs.ask _)
  rw [if_pos (hs.free n hn)] at h4
  obtain ⟨h4, h5⟩ := h4
  have hrs : rs = [(dest n, true)] := by
    cases rs with
    | nil => simp at h2
    | cons a rs =>
      cases rs with
      | nil => simp at h5; rw [h5]
      | cons b rs => simp at h2
  rw [h1, hrs]
  congr 1
  funext q
  unfold FS.set
  split
  · rename_i hq; rw [hq, h4]
  · rename_i hq; exact h3 q (by simpa using hq)

theorem dest_ne_srr {w : TagWorld} {srr outDir : Path} {c : List Entry} {file : Bytes} {names : List Str} {dest : Str → Path}
    {data : Str → Bytes} {fs : FS} (hs : TagSetup w srr outDir c file names dest data fs) {n : Str} (hn : n ∈ names) : dest n ≠ srr := by
  intro h
  have := hs.free n hn
  rw [h, hs.here] at this
  simp at this

/-- One round of the loop for music: the setup is as before. -/
theorem tag_round {w : TagWorld} {srr outDir inDir : Path} {c : List Entry} {file : Bytes} {names : List Str} {dest : Str → Path}
    {data : Str → Bytes} {fs : FS} (hs : TagSetup w srr outDir c file names dest data fs) {n t : Str} (hn : n ∈ names)
    (hi : srsInfo w.dig w.lower (dest n) (data n) = .ok (some t)) (rest : List Str) :
    ∃ fs' s, TagSetup w srr outDir c file names dest data fs' ∧ ((∃ m, s = .fixed m) ∨ ∃ m, s = .failed m) ∧
      tagLoop w srr outDir inDir (n :: rest) fs = (match tagLoop w srr outDir inDir rest fs' with
        | (fs, .error e) => (fs, .error e)
        | (fs, .ok l) => (fs, .ok ((n, s) :: l))) := by
  have hself : (fs.set (dest n) (some (data n))) (dest n) = some (data n) := by simp [FS.set]
  obtain ⟨fs2, s, h1, h2, h3⟩ := fix_music (outDir := outDir) (inDir := inDir) hself hi hs.calm
  have hkeep : ∀ q, (q = srr ∨ ∃ m ∈ names, q = dest m) → fs2 q = (fs.set (dest n) (some (data n))) q := by
    intro q hq
    rcases h3 with rfl | ⟨m, o, rfl⟩
    · rfl
    · rcases hq with rfl | ⟨k, hk, rfl⟩
      · exact (hs.frame ..).1
      · exact (hs.frame ..).2 k hk
  refine ⟨fs2.set (dest n) none, s, ⟨hs.contents, ?_, hs.ask, hs.only, ?_, hs.frame, hs.calm⟩, h2, ?_⟩
  · have hne := dest_ne_srr hs hn
    simp only [FS.set, if_neg hne.symm]
    rw [hkeep srr (.inl rfl)]
    simp only [FS.set, if_neg hne.symm]
    exact hs.here
  · intro m hm
    simp only [FS.set]
    split
    · rfl
    · rename_i hne
      rw [hkeep (dest m) (.inr ⟨m, hm, rfl⟩)]
      simp only [FS.set, if_neg hne]
      exact hs.free m hm
  · have hrem : removeFile fs2 (dest n) = (fs2.set (dest n) none, .ok ()) := by
      unfold removeFile isFileIn
      rw [hkeep (dest n) (.inr ⟨n, hn, rfl⟩), hself]
      rfl
    rw [tagLoop, extract_single hs hn]
    simp only [h1, hrem]
    cases tagLoop w srr outDir inDir rest (fs2.set (dest n) none) with
    | mk f r => cases r <;> rfl

/-- C86, for SRS files of music with paths of their own: all of them are used, in order; each is counted as fixed or failed; none is left
behind; the SRR is not changed. -/
theorem tag_all_partial {w : TagWorld} {srr outDir inDir : Path} {c : List Entry} {file : Bytes} {all : List Str} {dest : Str → Path}
    {data : Str → Bytes} (names : List Str) : ∀ {fs : FS}, TagSetup w srr outDir c file all dest data fs → (∀ n ∈ names, n ∈ all) →
      (∀ n ∈ names, ∃ t, srsInfo w.dig w.lower (dest n) (data n) = .ok (some t)) →
    ∃ fs' l, tagLoop w srr outDir inDir names fs = (fs', .ok l) ∧ l.map (·.1) = names ∧
      (∀ x ∈ l, (∃ m, x.2 = .fixed m) ∨ ∃ m, x.2 = .failed m) ∧ (∀ n ∈ all, fs' (dest n) = none) ∧ fs' srr = some file := by
  induction names with
  | nil => intro fs hs _ _; exact ⟨fs, [], rfl, rfl, by simp, hs.free, hs.here⟩
  | cons n rest ih =>
    intro fs hs hall hi
    obtain ⟨t, ht⟩ := hi n (by simp)
    obtain ⟨fs1, s, hs1, h2, h3⟩ := tag_round (inDir := inDir) hs (hall n (by simp)) ht rest
    obtain ⟨fs', l, h4, h5, h6, h7, h8⟩ := ih hs1 (fun x hx => hall x (by simp [hx])) fun x hx => hi x (by simp [hx])
    refine ⟨fs', (n, s) :: l, by rw [h3, h4], by simp [h5], ?_, h7, h8⟩
    intro x hx
    rcases List.mem_cons.1 hx with rfl | hx
    · exact h2
    · exact h6 x hx

/-- C86, violation: the SRS of a video, which a release may have beside the music, is removed twice.  The error is not caught: the tracks
that follow are not fixed. -/
theorem video_stops {w : TagWorld} {srr outDir inDir : Path} {c : List Entry} {file : Bytes} {all : List Str} {dest : Str → Path}
    {data : Str → Bytes} (pre : List Str) {n : Str} (post : List Str) : ∀ {fs : FS}, TagSetup w srr outDir c file all dest data fs →
      (∀ n ∈ pre, n ∈ all) → (∀ n ∈ pre, ∃ t, srsInfo w.dig w.lower (dest n) (data n) = .ok (some t)) → n ∈ all →
      srsInfo w.dig w.lower (dest n) (data n) = .ok none →
    (tagLoop w srr outDir inDir (pre ++ n :: post) fs).2 = .error .envError := by
  induction pre with
  | nil =>
    intro fs hs _ _ hn hi
    have hself : (fs.set (dest n) (some (data n))) (dest n) = some (data n) := by simp [FS.set]
    rw [List.nil_append, tagLoop, extract_single hs hn]
    simp only
    unfold fixTagging
    simp only [hself, hi]
    simp [removeFile, isFileIn, FS.set]
  | cons a pre ih =>
    intro fs hs hall hi hn hv
    obtain ⟨t, ht⟩ := hi a (by simp)
    obtain ⟨fs1, s, hs1, _, h3⟩ := tag_round (inDir := inDir) hs (hall a (by simp)) ht (pre ++ n :: post)
    have h4 := ih hs1 (fun x hx => hall x (by simp [hx])) (fun x hx => hi x (by simp [hx])) hn hv
    rw [List.cons_append, h3]
    revert h4
    cases tagLoop w srr outDir inDir (pre ++ n :: post) fs1 with
    | mk f r =>
      cases r with
      | error e => intro h4; exact h4
      | ok l => intro h4; simp at h4

/-- C86, violation: the exit status is never 0, also when all tracks are fixed. -/
theorem retag_never_succeeds (r : Res (List (Str × TagStep))) : tagStatus r ≠ .ok 0 := by
  unfold tagStatus
  split <;> simp

theorem fix_frame {w : TagWorld} {srs outDir inDir q : Path} {fs : FS} (hframe : ∀ s m o fs, (w.srs s m o fs).1 q = fs q) (hne : q ≠ srs) :
    (fixTagging w srs outDir inDir fs).1 q = fs q := by
  unfold fixTagging
  split
  · rfl
  · split
    · rfl
    · simp only [FS.set, if_neg hne]
    · split
      · rfl
      · split
        · rfl
        · rfl
        · split
          · rename_i heq; exact (congrArg (fun x => x.1 q) heq).symm.trans (hframe ..)
          · rename_i heq; exact (congrArg (fun x => x.1 q) heq).symm.trans (hframe ..)
          · rename_i heq; exact (congrArg (fun x => x.1 q) heq).symm.trans (hframe ..)

/-- C86, violation: when a stored file in a folder has the same name as the SRS, and comes first, it is used in place of the SRS, and the
SRS is left behind in the output folder. -/
theorem twin_left {w : TagWorld} {srr outDir inDir : Path} {c : List Entry} {file : Bytes} {n : Str} {p q : Path} {d d' : Bytes}
    {more : List (Path × Bytes)} {fs : FS} (hc : Contents file c) (hh : fs srr = some file) (hask : ∀ p, w.ask p = false)
    (hsel : selection ⟨outDir, true, n, none⟩ c = some ((p, d) :: (q, d') :: more)) (hpq : p ≠ q) (hq : fs q = none)
    (hframe : ∀ s m o fs, (w.srs s m o fs).1 q = fs q) : (tagLoop w srr outDir inDir [n] fs).1 q = some d' := by
  obtain ⟨fs', rs, h1, h2, _, h4⟩ := extract_result (hask srr) hh hc hsel
  have h5 := h4 [(p, d)] q d' more rfl (by simpa using Ne.symm hpq) (hask _)
  rw [if_pos hq] at h5
  obtain ⟨h5, _⟩ := h5
  cases rs with
  | nil => simp at h2
  | cons a rs =>
    obtain ⟨a1, a2⟩ := a
    simp only [List.map_cons, List.cons.injEq] at h2
    obtain ⟨h2, _⟩ := h2
    subst h2
    rw [tagLoop, h1]
    cases a2 with
    | false => simpa [tagLoop] using h5
    | true =>
      simp only
      have hfix : (fixTagging w a1 outDir inDir fs').1 q = some d' := by
        rw [fix_frame hframe (Ne.symm hpq)]; exact h5
      cases hft : fixTagging w a1 outDir inDir fs' with
      | mk f r =>
        rw [hft] at hfix
        simp only
        have hrem : (removeFile f a1).1 q = some d' := by
          unfold removeFile
          split
          · simp only [FS.set, if_neg (Ne.symm hpq)]; exact hfix
          · exact hfix
        cases hr : removeFile f a1 with
        | mk f2 r2 =>
          rw [hr] at hrem
          cases r2 with
          | error e => exact hrem
          | ok u =>
            cases r with
            | error e => exact hrem
            | ok s => simpa [tagLoop] using hrem

/-! ### Examples -/

/-- The SRS of a FLAC file "a.flac". -/
def exTagSrs : Bytes := [0x66, 0x4C, 0x61, 0x43, 0x73, 0, 0, 24, 3, 0, 0, 0, 6, 0, 0x61, 0x2E, 0x66, 0x6C, 0x61, 0x63, 5, 0, 0, 0, 0, 0, 0, 0,
  1, 2, 3, 4, 0x80, 0, 0, 1, 0]

def exTagEntries : List Entry :=
  [⟨0x69, .srrHeader [], [0x69, 0x69, 0x69, 0, 0, 7, 0], []⟩,
   ⟨0x6A, .stored 37 (str "a.srs"), [0x6A, 0x6A, 0x6A, 0, 0x80, 18, 0, 37, 0, 0, 0, 5, 0] ++ [0x61, 0x2E, 0x73, 0x72, 0x73], exTagSrs⟩,
   ⟨0x6A, .stored 3 (str "v.srs"), [0x6A, 0x6A, 0x6A, 0, 0x80, 18, 0, 3, 0, 0, 0, 5, 0] ++ [0x76, 0x2E, 0x73, 0x72, 0x73], [1, 2, 3]⟩]

def exTagSrr : Bytes := exTagEntries.flatMap fun e => e.raw ++ e.data

theorem exTag_contents : Contents exTagSrr exTagEntries := by
  refine ⟨by decide +kernel, [(⟨0, 0x6969, 0x69, 0, 7, 0, [0x69, 0x69, 0x69, 0, 0, 7, 0], .srrHeader []⟩, 7),
    (⟨7, 0x6A6A, 0x6A, 0x8000, 18, 37, [0x6A, 0x6A, 0x6A, 0, 0x80, 18, 0, 37, 0, 0, 0, 5, 0] ++ [0x61, 0x2E, 0x73, 0x72, 0x73],
      .stored 37 (str "a.srs")⟩, 62),
    (⟨62, 0x6A6A, 0x6A, 0x8000, 18, 3, [0x6A, 0x6A, 0x6A, 0, 0x80, 18, 0, 3, 0, 0, 0, 5, 0] ++ [0x76, 0x2E, 0x73, 0x72, 0x73],
      .stored 3 (str "v.srs")⟩, 83)],
    by decide +kernel, by decide +kernel, by decide +kernel, ?_⟩
  intro e he
  simp only [exTagEntries, List.mem_cons, List.not_mem_nil, or_false] at he
  rcases he with rfl | rfl | rfl
  · rfl
  · exact ⟨str "a.srs", rfl⟩
  · exact ⟨str "v.srs", rfl⟩

/-- `srs` writes one file, beside the SRS files. -/
def exTagWorld : TagWorld where
  dig := fun _ => false
  lower := lowerStr
  cwd := str "/"
  isDir := fun p => p = str "in" ∨ p = str "out"
  listdir := fun _ d => if d = str "in" then .ok [str "A.flac"] else .error .envError
  ask := fun _ => false
  srs := fun _ _ _ fs => (fs.set (str "out/a.flac") (some [1]), .returned)

def exTagFs : FS := FS.set (FS.set (fun _ => none) (str "r.srr") (some exTagSrr)) (str "in/A.flac") (some [7])

def exTagDest (n : Str) : Path := str "out/" ++ n

theorem exTagSetup : TagSetup exTagWorld (str "r.srr") (str "out") exTagEntries exTagSrr [str "a.srs", str "v.srs"] exTagDest
    (fun n => if n = str "a.srs" then exTagSrs else [1, 2, 3]) exTagFs where
  contents := exTag_contents
  here := by decide +kernel
  ask := fun _ => rfl
  only := by
    intro n hn
    simp only [List.mem_cons, List.not_mem_nil, or_false] at hn
    rcases hn with rfl | rfl <;> decide +kernel
  free := by
    intro n hn
    simp only [List.mem_cons, List.not_mem_nil, or_false] at hn
    rcases hn with rfl | rfl <;> decide +kernel
  frame := by
    intro s m o fs
    refine ⟨by simp only [exTagWorld, FS.set]; rw [if_neg (by decide +kernel)], ?_⟩
    intro n hn
    simp only [List.mem_cons, List.not_mem_nil, or_false] at hn
    rcases hn with rfl | rfl <;> (simp only [exTagWorld, FS.set]; rw [if_neg (by decide +kernel)])
  calm := by intro s m o fs msg; simp [exTagWorld]

/-- The hypotheses of `tag_all_partial` are met; the track is found although its name is in lower case. -/
example : ∃ fs' l, tagLoop exTagWorld (str "r.srr") (str "out") (str "in") [str "a.srs"] exTagFs = (fs', .ok l) ∧ l.map (·.1) = [str "a.srs"] := by
  obtain ⟨fs', l, h1, h2, _⟩ := tag_all_partial (inDir := str "in") [str "a.srs"] exTagSetup (by simp) (by
    intro n hn
    simp only [List.mem_cons, List.not_mem_nil, or_false] at hn
    subst hn
    exact ⟨str "a.flac", by decide +kernel⟩)
  exact ⟨fs', l, h1, h2⟩

example : (tagLoop exTagWorld (str "r.srr") (str "out") (str "in") [str "a.srs"] exTagFs).2 = .ok [(str "a.srs", .fixed (str "in/A.flac"))] := by
  decide +kernel

/-- The hypotheses of `video_stops` are met. -/
example : (tagLoop exTagWorld (str "r.srr") (str "out") (str "in") [str "a.srs", str "v.srs"] exTagFs).2 = .error .envError :=
  video_stops (inDir := str "in") [str "a.srs"] [] exTagSetup (by simp) (by
    intro n hn
    simp only [List.mem_cons, List.not_mem_nil, or_false] at hn
    subst hn
    exact ⟨str "a.flac", by decide +kernel⟩) (by simp) (by decide +kernel)

/-- The hypotheses of `twin_left` are met: "d/a.srs" comes before "a.srs". -/
example : selection ⟨str "out", true, str "a.srs", none⟩
    [⟨0x6A, .stored 1 (str "d/a.srs"), [], [1]⟩, ⟨0x6A, .stored 1 (str "a.srs"), [], [2]⟩] =
      some [(str "out/d/a.srs", [1]), (str "out/a.srs", [2])] := by decide +kernel

/-- The hypotheses of `join_fix_case_sound` are met. -/
example : joinFixCase exTagWorld exTagFs (str "in") [str "a.FLAC"] = .ok (str "in/A.flac") := by decide +kernel

/-- C86, violation: of two folders that differ in case only, the one with the asked name is taken, also when the file is in the other. -/
theorem join_fix_case_twins : ∃ (w : TagWorld) (fs : FS), fs (str "in/cd1/a.mp3") = some [1] ∧
    joinFixCase w fs (str "in") [str "CD1", str "a.mp3"] = .ok [] := by
  refine ⟨{ exTagWorld with
    isDir := fun p => p = str "in" ∨ p = str "in/CD1" ∨ p = str "in/cd1"
    listdir := fun _ d => if d = str "in" then .ok [str "CD1", str "cd1"] else if d = str "in/cd1" then .ok [str "a.mp3"] else if d = str "in/CD1" then .ok []
      else .error .envError }, FS.set (fun _ => none) (str "in/cd1/a.mp3") (some [1]), by decide +kernel, by decide +kernel⟩

end Rescene.Props
