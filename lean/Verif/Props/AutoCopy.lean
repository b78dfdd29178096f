import Verif.Model.AutoCopy
import Verif.Spec.AutoCopy
import Verif.Props.AutoFind
import Verif.Props.Inputs
import Verif.Props.AutoStore
import Verif.Lemmas.Relpath
import Verif.Lemmas.Edit
/-
C95: the files beside the archives of a release are copied for the SRR as they are.
-/
namespace Rescene.Props
open Rescene Rescene.Spec

/-- The release is on the disk, no two of its files differ in case only, and the working folder is somewhere else. -/
structure CopyOk (w : CopyWorld) (fs : FS) : Prop where
  find : FindOk w.find
  dots : NoDots w.find.tree
  cwd : w.cwd.head? = some 0x2F
  disk : OnDisk w.listdir fs w.find.root w.find.tree
  apart : CaseApart w.find.lower w.find.tree
  work : RootOk w.work
  away : Elsewhere w.find.root w.work

theorem over_plain {t : Tree} (hn : NamesOk t) (hf : FilesOk t) (hd : NoDots t) {names : List Str} (h : FileOver t names) :
    ∀ e ∈ names, PlainElem e := by
  obtain ⟨d1, d2⟩ := hd names h
  obtain ⟨ns, s, name, hs, hm, rfl⟩ := h
  intro e he
  refine ⟨?_, fun h => d1 (h ▸ he), fun h => d2 (h ▸ he), ?_⟩
  all_goals
    rcases List.mem_append.1 he with he | he
    · first | exact (folderAt_names hn hs e he).1 | exact (folderAt_names hn hs e he).2
    · rw [List.mem_singleton] at he
      subst he
      first | exact ((hf ns s hs).2 e hm).1 | exact ((hf ns s hs).2 e hm).2

theorem place_pathAt (c : List Str) {root : Str} (hr : root ≠ []) {names : List Str} (h : ∀ e ∈ names, PlainElem e) :
    place c (pathAt root names) = place c root ++ names := by
  induction names generalizing root with
  | nil => simp [pathAt]
  | cons n ns ih =>
    have hn := h n (by simp)
    have e : pathAt root (n :: ns) = pathAt (root ++ 0x2F :: n) ns := rfl
    rw [e, ih (by simp) fun x hx => h x (by simp [hx])]
    have hh : (root ++ 0x2F :: n).head? = root.head? := by
      cases root with
      | nil => exact absurd rfl hr
      | cons c r => rfl
    unfold place
    rw [hh, splitOn_append, walk_append, splitOn_of_not_mem hn.2.2.2, walk_plain (ps := [n]) (by simpa using hn)]
    simp

theorem relElems_below (p names : List Str) : relElems p (p ++ names) = names := by
  unfold relElems
  rw [(commonLength_prefix p (p ++ names)).2 (List.prefix_append _ _)]
  simp

/-- The path of a file relative to the folder it is in. -/
theorem relpath_below {cwd : Str} (hc : cwd.head? = some 0x2F) {root : Str} (hr : root ≠ []) {names : List Str} (hne : names ≠ [])
    (h : ∀ e ∈ names, PlainElem e) : relpath cwd (pathAt root names) root = .ok (joinWith 0x2F names) := by
  have hp : pathAt root names ≠ [] := by
    have := pathAt_prefix root names
    intro e
    rw [e] at this
    exact hr (List.prefix_nil.1 this)
  rw [relpath_eq hc hp, place_pathAt _ hr h]
  simp only [relElems_below, if_neg hne]

theorem join_names {names : List Str} (hne : names ≠ []) : 0x2F :: joinWith 0x2F names = names.flatMap (fun n => 0x2F :: n) := by
  induction names with
  | nil => exact absurd rfl hne
  | cons n ns ih =>
    cases ns with
    | nil => simp [joinWith]
    | cons m ns =>
      rw [List.flatMap_cons, ← ih (by simp)]
      simp [joinWith]

theorem join_below {work : Str} (hw : RootOk work) {names : List Str} (hne : names ≠ []) (h : ∀ e ∈ names, PlainElem e) :
    posixJoin2 work (joinWith 0x2F names) = pathAt work names := by
  have hh : (joinWith 0x2F names).head? ≠ some 0x2F := by
    cases names with
    | nil => exact absurd rfl hne
    | cons n ns =>
      have hn := h n (by simp)
      rw [joinWith_head hn.1]
      exact head_ne_of_not_mem hn.2.2.2
  rw [join_plain hh, if_neg (by simp [hw.1, hw.2.1]), join_names hne, pathAt_eq]

theorem pathAt_rootOk {root : Str} (hr : RootOk root) {ns : List Str} (h : ∀ e ∈ ns, PlainElem e) : RootOk (pathAt root ns) := by
  rcases List.eq_nil_or_concat ns with rfl | ⟨b, n, rfl⟩
  · exact hr
  · rw [List.concat_eq_append, pathAt_snoc]
    have hn := h n (by simp)
    exact rootOk_snoc hn.1 hn.2.2.2

/-- C95: a file of the release is copied with its contents, and to the same place below the working folder; nothing else
changes. -/
theorem copy_one {w : CopyWorld} {fs : FS} (h : CopyOk w fs) {names : List Str} (hn : FileOver w.find.tree names) :
    copyToWork w fs (pathAt w.find.root names) =
      .ok (fs.set (pathAt w.work names) (fs (pathAt w.find.root names)), pathAt w.work names) := by
  have hpl := over_plain h.find.names h.find.files h.dots hn
  obtain ⟨ns, s, name, hs, hm, rfl⟩ := hn
  have hname := hpl name (by simp)
  have hnsp : ∀ e ∈ ns, PlainElem e := fun e he => hpl e (by simp [he])
  have hrok := pathAt_rootOk h.find.root hnsp
  have hwok := pathAt_rootOk h.work hnsp
  have hdir : dirname (pathAt w.find.root (ns ++ [name])) = pathAt w.find.root ns := by
    rw [pathAt_snoc]; exact dirname_slash hname.2.2.2 hrok.1 hrok.2.1
  have hdirw : dirname (pathAt w.work (ns ++ [name])) = pathAt w.work ns := by
    rw [pathAt_snoc]; exact dirname_slash hname.2.2.2 hwok.1 hwok.2.1
  have hbase : basename (pathAt w.find.root (ns ++ [name])) = name := by
    rw [pathAt_snoc]; exact basename_slash _ hname.2.2.2
  have hf : (fs (pathAt w.find.root (ns ++ [name]))).isSome = true := (h.disk.files ns s hs name ((h.find.files ns s hs).2 name hm).2).2 hm
  have hcap := capitalized_same (w := ⟨fun _ => false, w.find.lower, id, w.cwd, w.listdir, []⟩) (fs := fs) (p := pathAt w.find.root (ns ++ [name]))
    (by unfold Usual; rw [hdir, hbase, join_eq hrok hname.1 hname.2.2.2, pathAt_snoc])
    (by
      obtain ⟨l, hl, hmem⟩ := h.disk.lists ns s hs
      refine ⟨l, by rw [hdir]; exact hl, by rw [hbase]; exact (hmem name).2 (Or.inl hm), ?_⟩
      intro c hc hcase hcf
      rw [hbase] at hcase ⊢
      have hplain : c ≠ [] ∧ 0x2F ∉ c := by
        rcases (hmem c).1 hc with hc | hc
        · exact (h.find.files ns s hs).2 c hc
        · obtain ⟨d, hd, rfl⟩ := List.mem_map.1 hc
          exact (h.find.names ns s hs).2 d hd
      rw [hdir, join_eq hrok hplain.1 hplain.2, ← pathAt_snoc] at hcf
      exact h.apart ns s hs c ((h.disk.files ns s hs c hplain.2).1 hcf) name hm hcase)
    hf
  dsimp only at hcap
  unfold copyToWork workDirFile
  rw [hcap]
  simp only [ok_bind, relpath_below h.cwd h.find.root.1 (by simp : ns ++ [name] ≠ []) hpl]
  rw [join_below h.work (by simp) hpl]
  simp only [pure_eq_ok, ok_bind]
  rw [hdirw, hbase, join_eq hwok hname.1 hname.2.2.2, ← pathAt_snoc]
  cases hd : fs (pathAt w.find.root (ns ++ [name])) with
  | none => rw [hd] at hf; cases hf
  | some data => rfl

/-- Copying a file leaves the release as it is. -/
theorem CopyOk.set {w : CopyWorld} {fs : FS} (h : CopyOk w fs) (names : List Str) (d : Option Bytes) : CopyOk w (fs.set (pathAt w.work names) d) where
  find := h.find
  dots := h.dots
  cwd := h.cwd
  apart := h.apart
  work := h.work
  away := h.away
  disk := ⟨h.disk.lists, fun ns s hs n hn => by rw [FS.set_ne _ _ (Ne.symm (h.away _ _))]; exact h.disk.files ns s hs n hn⟩

/-- C95: all files of a list are copied, each to its place below the working folder and with its contents; every other
file stays as it is. -/
theorem copies {w : CopyWorld} {fs : FS} (h : CopyOk w fs) {l : List (List Str)} (hl : ∀ names ∈ l, FileOver w.find.tree names) :
    ∃ fs', copyAll w fs (l.map (pathAt w.find.root)) = .ok (fs', l.map (pathAt w.work)) ∧
      (∀ names ∈ l, fs' (pathAt w.work names) = fs (pathAt w.find.root names) ∧ (fs' (pathAt w.work names)).isSome) ∧
      ∀ p, (∀ names ∈ l, p ≠ pathAt w.work names) → fs' p = fs p := by
  induction l generalizing fs with
  | nil => exact ⟨fs, rfl, by simp, fun _ _ => rfl⟩
  | cons n l ih =>
    have hn := hl n (by simp)
    obtain ⟨fs', h1, h2, h3⟩ := ih (h.set n (fs (pathAt w.find.root n))) fun x hx => hl x (by simp [hx])
    refine ⟨fs', ?_, ?_, ?_⟩
    · simp only [List.map_cons, copyAll, copy_one h hn, ok_bind, h1]
      rfl
    · have hsome : (fs (pathAt w.find.root n)).isSome = true := by
        obtain ⟨ns, s, name, hs, hm, rfl⟩ := hn
        exact (h.disk.files ns s hs name ((h.find.files ns s hs).2 name hm).2).2 hm
      intro m hm
      rcases List.mem_cons.1 hm with rfl | hm
      · by_cases hin : m ∈ l
        · obtain ⟨e1, e2⟩ := h2 m hin
          rw [FS.set_ne _ _ (Ne.symm (h.away _ _))] at e1
          exact ⟨e1, e2⟩
        · have e : fs' (pathAt w.work m) = fs (pathAt w.find.root m) := by
            rw [h3 _ ?_, FS.set_eq]
            intro x hx e
            have hm := fun e he => (over_plain h.find.names h.find.files h.dots hn e he).2.2.2
            have hx' := fun e he => (over_plain h.find.names h.find.files h.dots (hl x (by simp [hx])) e he).2.2.2
            rw [pathAt_inj hm hx' e] at hin
            exact hin hx
          exact ⟨e, by rw [e]; exact hsome⟩
      · obtain ⟨e1, e2⟩ := h2 m hm
        rw [FS.set_ne _ _ (Ne.symm (h.away _ _))] at e1
        exact ⟨e1, e2⟩
    · intro p hp
      rw [h3 p fun x hx => hp x (by simp [hx]), FS.set_ne _ _ (hp n (by simp))]

/-- C95: the name that a copied file gets in the SRR (its path relative to the working folder) is its path relative to the
folder of the release. -/
theorem copied_name {w : CopyWorld} {fs : FS} (h : CopyOk w fs) {names : List Str} (hn : FileOver w.find.tree names) :
    relpath w.cwd (pathAt w.work names) w.work = .ok (joinWith 0x2F names) ∧
    relpath w.cwd (pathAt w.find.root names) w.find.root = .ok (joinWith 0x2F names) := by
  have hpl := over_plain h.find.names h.find.files h.dots hn
  have hne : names ≠ [] := by
    obtain ⟨ns, s, name, _, _, rfl⟩ := hn
    simp
  exact ⟨relpath_below h.cwd h.work.1 hne hpl, relpath_below h.cwd h.find.root.1 hne hpl⟩

/-! ### Which files -/

theorem siteNfo_iff (lower : Str → Str) (name : Str) (size : Nat) (hs : ¬ (size = 8 ∧ (lower name = str "o.nfo" ∨ lower name = str ".nfo")))
    (he : str ".nfo" <:+ lower name) : nfoStored lower name size = true ↔ ¬ SiteNfo lower name size := by
  have key : isIn (lower name) (str "no.nfo") = true ↔ lower name = str "no.nfo" ∨ lower name = str "o.nfo" ∨ lower name = str ".nfo" := by
    rw [isIn_iff]
    constructor
    · rintro ⟨a, b, e⟩
      obtain ⟨c, hc⟩ := he
      have hb : b = [] := by
        have hlen : a.length + (lower name).length + b.length = 6 := by rw [← List.length_append, ← List.length_append, e]; rfl
        rw [← hc] at e hlen
        have hl4 : (str ".nfo").length = 4 := rfl
        rw [List.length_append, hl4] at hlen
        have hsuf : ∀ z : Str, a ++ (c ++ str ".nfo") = z → (str ".nfo").isSuffixOf z = true := by
          intro z hz
          exact List.isSuffixOf_iff_suffix.2 ⟨a ++ c, by rw [← hz]; simp⟩
        match b, e, hlen with
        | [], _, _ => rfl
        | [x], e, _ =>
          have := List.append_inj' (t₁ := [x]) (t₂ := str "o") (s₂ := str "no.nf") e rfl
          exact absurd (hsuf _ this.1) (by decide)
        | [x, y], e, _ =>
          have := List.append_inj' (t₁ := [x, y]) (t₂ := str "fo") (s₂ := str "no.n") e rfl
          exact absurd (hsuf _ this.1) (by decide)
        | _ :: _ :: _ :: _, _, h => simp only [List.length_cons] at h; omega
      subst hb
      rw [List.append_nil] at e
      have : lower name <:+ str "no.nfo" := ⟨a, e⟩
      have hlen : (lower name).length ≤ 6 := this.length_le
      match a, e with
      | [], e => exact Or.inl e
      | [x], e => right; left; simp [str] at e ⊢; exact e.2
      | [x, y], e => right; right; simp [str] at e ⊢; exact e.2.2
      | x :: y :: z :: a, e =>
        have h4 : 4 ≤ (lower name).length := by rw [← hc]; simp [str]
        have := congrArg List.length e
        simp [str] at this
        omega
    · rintro (h | h | h)
      · rw [h]; exact List.infix_rfl
      · rw [h]; exact ⟨str "n", [], by decide⟩
      · rw [h]; exact ⟨str "no", [], by decide⟩
  unfold nfoStored SiteNfo
  by_cases h8 : size = 8
  · subst h8
    simp only [Bool.and_eq_true, Bool.not_eq_true', beq_self_eq_true, Bool.and_true, Bool.eq_false_iff, ne_eq, key]
    simp only [true_and, not_or] at hs
    simp only [List.contains_eq_mem, List.mem_cons, List.not_mem_nil, or_false, decide_eq_true_eq]
    grind
  · simp only [Bool.and_eq_true, Bool.not_eq_true', beq_eq_false_iff_ne.2 h8, Bool.and_false, List.contains_eq_mem, List.mem_cons, List.not_mem_nil,
      or_false, decide_eq_false_iff_not]
    grind

theorem siteLog_iff (lower : Str → Str) (name : Str) : logStored lower name = true ↔ ¬ SiteLog lower name := by
  unfold logStored SiteLog
  have hh : (∃ r, name = 0x2E :: r) ↔ name.head? = some 0x2E := by
    cases name <;> simp
  rw [hh]
  simp only [Bool.not_eq_true', Bool.or_eq_false_iff, List.contains_eq_mem, List.mem_cons, List.not_mem_nil, or_false, decide_eq_false_iff_not,
    beq_eq_false_iff_ne, ne_eq]
  grind

/-- No file of eight bytes is called `.nfo` or `o.nfo`. -/
def NoPartNfo (w : FindWorld) : Prop := ∀ f name, FileAt w.root w.tree f name → w.size f = 8 → w.lower name ≠ str "o.nfo" ∧ w.lower name ≠ str ".nfo"

/-- C95: the files that are copied are the NFO files, playlists, logs and cue sheets in the folders of the release, except
those that sites add, and the proofs (C89).  Missing: an NFO file of eight bytes that is called `.nfo` or `o.nfo`. -/
theorem extras_partial {w : FindWorld} (h : FindOk w) (hp : NoPartNfo w) (more : Bool) {l : List Str} (hl : extraFiles w more = .ok l) :
    ∃ proofs, proofFiles w more = .ok proofs ∧ ∀ f, f ∈ l ↔ f ∈ proofs ∨ ∃ name, FileAt w.root w.tree f name ∧
      ((HasExtn w.lower ".nfo" name ∧ ¬ SiteNfo w.lower name (w.size f)) ∨ HasExtn w.lower ".m3u" name ∨
        (HasExtn w.lower ".log" name ∧ ¬ SiteLog w.lower name) ∨ HasExtn w.lower ".cue" name) := by
  unfold extraFiles at hl
  simp only [bind_eq_ok] at hl
  obtain ⟨proofs, h1, h2⟩ := hl
  cases h2
  refine ⟨proofs, h1, fun f => ?_⟩
  have low : ∀ e ∈ [".nfo", ".m3u", ".log", ".cue"], w.lower (str e) = str e := by
    intro e he
    refine h.lower _ ?_
    have : ∀ e ∈ [".nfo", ".m3u", ".log", ".cue"], ∀ c ∈ str e, c < 128 ∧ ¬ (0x41 ≤ c ∧ c ≤ 0x5A) := by decide +kernel
    exact this e he
  have F := fun (e : String) (he : e ∈ [".nfo", ".m3u", ".log", ".cue"]) => (files_found h (low e he)).1 f
  simp only [nfoFiles, logFiles, List.mem_append, List.mem_filter, F ".nfo" (by simp), F ".m3u" (by simp), F ".log" (by simp), F ".cue" (by simp)]
  constructor
  · rintro ((((⟨⟨name, hm, hx⟩, hs⟩ | ⟨name, hm, hx⟩) | hpf) | ⟨⟨name, hm, hx⟩, hs⟩) | ⟨name, hm, hx⟩)
    · rw [fileAt_base h.files hm, siteNfo_iff _ _ _ (fun e => by have := hp f name hm e.1; exact e.2.elim this.1 this.2) hx] at hs
      exact Or.inr ⟨name, hm, Or.inl ⟨hx, hs⟩⟩
    · exact Or.inr ⟨name, hm, Or.inr (Or.inl hx)⟩
    · exact Or.inl hpf
    · rw [fileAt_base h.files hm, siteLog_iff] at hs
      exact Or.inr ⟨name, hm, Or.inr (Or.inr (Or.inl ⟨hx, hs⟩))⟩
    · exact Or.inr ⟨name, hm, Or.inr (Or.inr (Or.inr hx))⟩
  · rintro (hpf | ⟨name, hm, ⟨hx, hs⟩ | hx | ⟨hx, hs⟩ | hx⟩)
    · exact Or.inl (Or.inl (Or.inr hpf))
    · refine Or.inl (Or.inl (Or.inl (Or.inl ⟨⟨name, hm, hx⟩, ?_⟩)))
      rw [fileAt_base h.files hm, siteNfo_iff _ _ _ (fun e => by have := hp f name hm e.1; exact e.2.elim this.1 this.2) hx]
      exact hs
    · exact Or.inl (Or.inl (Or.inl (Or.inr ⟨name, hm, hx⟩)))
    · refine Or.inl (Or.inr ⟨⟨name, hm, hx⟩, ?_⟩)
      rw [fileAt_base h.files hm, siteLog_iff]
      exact hs
    · exact Or.inr ⟨name, hm, hx⟩

theorem extra_lower {w : FindWorld} (h : FindOk w) : ∀ e ∈ proofExts ++ [".rar", ".nfo", ".m3u", ".log", ".cue", ".srs"], w.lower (str e) = str e := by
  have : ∀ e ∈ proofExts ++ [".rar", ".nfo", ".m3u", ".log", ".cue", ".srs"], ∀ c ∈ str e, c < 128 ∧ ¬ (0x41 ≤ c ∧ c ≤ 0x5A) := by decide +kernel
  exact fun e he => h.lower _ (this e he)

theorem extra_apart {w : FindWorld} (h : FindOk w) {e e' : String} (he : e ∈ proofExts ++ [".rar", ".nfo", ".m3u", ".log", ".cue", ".srs"])
    (he' : e' ∈ proofExts ++ [".rar", ".nfo", ".m3u", ".log", ".cue", ".srs"]) {f : Str} (hf : f ∈ w.files e) (hf' : f ∈ w.files e') : e = e' := by
  have apart : ∀ e ∈ proofExts ++ [".rar", ".nfo", ".m3u", ".log", ".cue", ".srs"], ∀ e' ∈ proofExts ++ [".rar", ".nfo", ".m3u", ".log", ".cue", ".srs"],
    (str e).isSuffixOf (str e') = true → e = e' := by decide +kernel
  obtain ⟨n, hn, hx⟩ := ((files_found h (extra_lower h e he)).1 f).1 hf
  obtain ⟨n', hn', hx'⟩ := ((files_found h (extra_lower h e' he')).1 f).1 hf'
  have : n = n' := (fileAt_base h.files hn).symm.trans (fileAt_base h.files hn')
  subst this
  rcases two_exts hx hx' with hh | hh
  · exact apart e he e' he' (List.isSuffixOf_iff_suffix.2 hh)
  · exact (apart e' he' e he (List.isSuffixOf_iff_suffix.2 hh)).symm

theorem proofs_ext {w : FindWorld} {more : Bool} {l : List Str} (hl : proofFiles w more = .ok l) {f : Str} (hf : f ∈ l) :
    ∃ e ∈ proofExts ++ [".rar"], f ∈ w.files e := by
  unfold proofFiles at hl
  obtain ⟨imgs, h1, hl⟩ := bind_eq_ok.1 hl
  obtain ⟨rars, h2, hl⟩ := bind_eq_ok.1 hl
  cases hl
  obtain ⟨q1, hq1, rfl⟩ := filterRes_ok h1
  obtain ⟨q2, hq2, rfl⟩ := filterRes_ok h2
  rcases List.mem_append.1 hf with hf | hf
  · obtain ⟨e, he, hf⟩ := List.mem_flatMap.1 (List.mem_filter.1 hf).1
    exact ⟨e, by simp [he], hf⟩
  · exact ⟨".rar", by simp, (List.mem_filter.1 hf).1⟩

/-- C95: no file is in the list twice. -/
theorem extras_once {w : FindWorld} (h : FindOk w) (more : Bool) {l : List Str} (hl : extraFiles w more = .ok l) : l.Nodup := by
  unfold extraFiles at hl
  obtain ⟨proofs, h1, h2⟩ := bind_eq_ok.1 hl
  cases h2
  have nd := fun (e : String) (he : e ∈ proofExts ++ [".rar", ".nfo", ".m3u", ".log", ".cue", ".srs"]) => (files_found h (extra_lower h e he)).2
  have sub4 : ∀ e ∈ [".nfo", ".m3u", ".log", ".cue"], e ∈ proofExts ++ [".rar", ".nfo", ".m3u", ".log", ".cue", ".srs"] := by decide
  have pe : ∀ {f : Str} {e : String}, f ∈ proofs → e ∈ [".nfo", ".m3u", ".log", ".cue"] → f ∉ w.files e := by
    intro f e hf he hf'
    obtain ⟨e', he', hm⟩ := proofs_ext h1 hf
    have := extra_apart h (by rcases List.mem_append.1 he' with hh | hh <;> simp at * <;> simp [hh]) (sub4 _ he) hm hf'
    subst this
    have : ∀ e ∈ [".nfo", ".m3u", ".log", ".cue"], e ∉ proofExts ++ [".rar"] := by decide
    exact this _ he he'
  have ap : ∀ {f : Str} {e e' : String}, e ∈ [".nfo", ".m3u", ".log", ".cue"] → e' ∈ [".nfo", ".m3u", ".log", ".cue"] → e ≠ e' → f ∈ w.files e → f ∉ w.files e' := by
    intro f e e' he he' hne hf hf'
    exact hne (extra_apart h (sub4 _ he) (sub4 _ he') hf hf')
  have n1 : (nfoFiles w).Nodup := List.filter_sublist.nodup (nd ".nfo" (by simp))
  have n2 : (logFiles w).Nodup := List.filter_sublist.nodup (nd ".log" (by simp))
  have m1 : ∀ {f}, f ∈ nfoFiles w → f ∈ w.files ".nfo" := fun hf => (List.mem_filter.1 hf).1
  have m2 : ∀ {f}, f ∈ logFiles w → f ∈ w.files ".log" := fun hf => (List.mem_filter.1 hf).1
  have key : ∀ (a b : List Str), a.Nodup → b.Nodup → (∀ f ∈ a, f ∉ b) → (a ++ b).Nodup := by
    intro a b ha hb hab
    rw [List.nodup_append]
    exact ⟨ha, hb, fun x hx y hy e => hab x hx (e ▸ hy)⟩
  refine key _ _ (key _ _ (key _ _ (key _ _ n1 (nd ".m3u" (by simp)) ?_) (proofs_once h more h1) ?_) n2 ?_) (nd ".cue" (by simp)) ?_
  · exact fun f hf => ap (by simp) (by simp) (by decide) (m1 hf)
  · intro f hf hp
    rcases List.mem_append.1 hf with hf | hf
    · exact pe hp (by simp) (m1 hf)
    · exact pe hp (by simp) hf
  · intro f hf hp
    rcases List.mem_append.1 hf with hf | hf
    · rcases List.mem_append.1 hf with hf | hf
      · exact ap (by simp) (by simp) (by decide) (m1 hf) (m2 hp)
      · exact ap (by simp) (by simp) (by decide) hf (m2 hp)
    · exact pe hf (by simp) (m2 hp)
  · intro f hf hp
    rcases List.mem_append.1 hf with hf | hf
    · rcases List.mem_append.1 hf with hf | hf
      · rcases List.mem_append.1 hf with hf | hf
        · exact ap (by simp) (by simp) (by decide) (m1 hf) hp
        · exact ap (by simp) (by simp) (by decide) hf hp
      · exact pe hf (by simp) hp
    · exact ap (by simp) (by simp) (by decide) (m2 hf) hp

theorem fileAt_over {t : Tree} {root f name : Str} (h : FileAt root t f name) : ∃ names, FileOver t names ∧ f = pathAt root names := by
  obtain ⟨ns, s, hs, hm, rfl⟩ := h
  exact ⟨_, ⟨ns, s, name, hs, hm, rfl⟩, rfl⟩

theorem names_list {t : Tree} {root : Str} {l : List Str} (h : ∀ f ∈ l, ∃ names, FileOver t names ∧ f = pathAt root names) :
    ∃ nl : List (List Str), l = nl.map (pathAt root) ∧ ∀ names ∈ nl, FileOver t names := by
  induction l with
  | nil => exact ⟨[], rfl, by simp⟩
  | cons f l ih =>
    obtain ⟨nl, h1, h2⟩ := ih fun x hx => h x (by simp [hx])
    obtain ⟨n, hn, rfl⟩ := h f (by simp)
    exact ⟨n :: nl, by rw [h1]; rfl, fun x hx => by rcases List.mem_cons.1 hx with rfl | hx; exact hn; exact h2 x hx⟩

theorem nodup_of_map' {α β : Type} (g : α → β) {l : List α} (h : (l.map g).Nodup) : l.Nodup := by
  induction l with
  | nil => simp
  | cons x l ih =>
    rw [List.map_cons, List.nodup_cons] at h
    exact List.nodup_cons.2 ⟨fun hx => h.1 (List.mem_map_of_mem hx), ih h.2⟩

/-- C95: the wanted files (`extras_partial`) are all in the working folder afterwards, each in its place and with its
contents, and they are listed there, each once; every other file stays as it is. -/
theorem extras_copied {w : CopyWorld} {fs : FS} (h : CopyOk w fs) (more : Bool) {l : List Str} (hl : extraFiles w.find more = .ok l) :
    ∃ (nl : List (List Str)) (fs' : FS), l = nl.map (pathAt w.find.root) ∧ nl.Nodup ∧
      copyExtras w more fs = .ok (fs', nl.map (pathAt w.work)) ∧
      (∀ names ∈ nl, fs' (pathAt w.work names) = fs (pathAt w.find.root names) ∧ (fs' (pathAt w.work names)).isSome) ∧
      ∀ p, (∀ names ∈ nl, p ≠ pathAt w.work names) → fs' p = fs p := by
  have hat : ∀ f ∈ l, ∃ names, FileOver w.find.tree names ∧ f = pathAt w.find.root names := by
    intro f hf
    have : ∃ e ∈ proofExts ++ [".rar", ".nfo", ".m3u", ".log", ".cue", ".srs"], f ∈ w.find.files e := by
      have hl' := hl
      unfold extraFiles at hl'
      obtain ⟨proofs, h1, h2⟩ := bind_eq_ok.1 hl'
      cases h2
      simp only [List.mem_append, nfoFiles, logFiles, List.mem_filter] at hf
      rcases hf with (((hf | hf) | hf) | hf) | hf
      · exact ⟨".nfo", by simp, hf.1⟩
      · exact ⟨".m3u", by simp, hf⟩
      · obtain ⟨e, he, hf⟩ := proofs_ext h1 hf
        exact ⟨e, by rcases List.mem_append.1 he with hh | hh <;> simp at * <;> simp [hh], hf⟩
      · exact ⟨".log", by simp, hf.1⟩
      · exact ⟨".cue", by simp, hf⟩
    obtain ⟨e, he, hf⟩ := this
    obtain ⟨n, hn, _⟩ := ((files_found h.find (extra_lower h.find e he)).1 f).1 hf
    exact fileAt_over hn
  obtain ⟨nl, rfl, h2⟩ := names_list hat
  obtain ⟨fs', h3, h4, h5⟩ := copies h h2
  refine ⟨nl, fs', rfl, nodup_of_map' _ (extras_once h.find more hl), ?_, h4, h5⟩
  unfold copyExtras
  rw [hl]
  exact h3

/-! ### SRS files and the archive of a fix -/

/-- C95: the SRS files of the release are stored where none was made from a sample of it; those that were made stay as they
are. -/
theorem srs_copied {w : CopyWorld} {fs : FS} (h : CopyOk w fs) (copied : List Str) {l : List (List Str)} (hd : l.Nodup)
    (hl : ∀ names ∈ l, FileOver w.find.tree names) :
    ∃ (fs' : FS) (added : List (List Str)), copySrs w fs copied (l.map (pathAt w.find.root)) = .ok (fs', copied ++ added.map (pathAt w.work)) ∧
      (∀ names, names ∈ added ↔ names ∈ l ∧ pathAt w.work names ∉ copied) ∧ added.Nodup ∧
      (∀ names ∈ added, fs' (pathAt w.work names) = fs (pathAt w.find.root names) ∧ (fs' (pathAt w.work names)).isSome) ∧
      ∀ p, (∀ names ∈ added, p ≠ pathAt w.work names) → fs' p = fs p := by
  induction l generalizing fs copied with
  | nil => exact ⟨fs, [], by simp [copySrs], by simp, by simp, by simp, fun _ _ => rfl⟩
  | cons n l ih =>
    have hn := hl n (by simp)
    have hpl := over_plain h.find.names h.find.files h.dots hn
    have hl' : ∀ names ∈ l, FileOver w.find.tree names := fun x hx => hl x (by simp [hx])
    have hne : n ≠ [] := by
      obtain ⟨ns, s, name, _, _, rfl⟩ := hn
      simp
    rw [List.nodup_cons] at hd
    have hinj : ∀ x ∈ l, pathAt w.work x = pathAt w.work n → x = n := by
      intro x hx e
      exact pathAt_inj (fun e he => (over_plain h.find.names h.find.files h.dots (hl' x hx) e he).2.2.2) (fun e he => (hpl e he).2.2.2) e
    have hwd : workDirFile w (pathAt w.find.root n) = .ok (pathAt w.work n) := by
      unfold workDirFile
      rw [relpath_below h.cwd h.find.root.1 hne hpl]
      simp only [ok_bind, join_below h.work hne hpl]
      rfl
    by_cases hin : pathAt w.work n ∈ copied
    · obtain ⟨fs', added, h1, h2, h3, h4, h5⟩ := ih h copied hd.2 hl'
      refine ⟨fs', added, ?_, ?_, h3, h4, h5⟩
      · simp only [List.map_cons, copySrs, hwd, ok_bind, List.contains_eq_mem, hin, decide_true, if_true, h1]
      · intro x
        rw [h2]
        constructor
        · exact fun hx => ⟨by simp [hx.1], hx.2⟩
        · rintro ⟨hx, hx'⟩
          rcases List.mem_cons.1 hx with rfl | hx
          · exact absurd hin hx'
          · exact ⟨hx, hx'⟩
    · obtain ⟨fs', added, h1, h2, h3, h4, h5⟩ := ih (h.set n (fs (pathAt w.find.root n))) (copied ++ [pathAt w.work n]) hd.2 hl'
      have hnn : n ∉ added := fun hx => hd.1 ((h2 n).1 hx).1
      have hmem : ∀ names, names ∈ n :: added ↔ names ∈ n :: l ∧ pathAt w.work names ∉ copied := by
        intro x
        rw [List.mem_cons, List.mem_cons, h2]
        constructor
        · rintro (rfl | ⟨hx, hx'⟩)
          · exact ⟨Or.inl rfl, hin⟩
          · exact ⟨Or.inr hx, fun hc => hx' (by simp [hc])⟩
        · rintro ⟨rfl | hx, hx'⟩
          · exact Or.inl rfl
          · refine Or.inr ⟨hx, ?_⟩
            simp only [List.mem_append, List.mem_singleton, not_or]
            exact ⟨hx', fun e => hd.1 (hinj x hx e ▸ hx)⟩
      refine ⟨fs', n :: added, ?_, hmem, List.nodup_cons.2 ⟨hnn, h3⟩, ?_, ?_⟩
      · simp only [List.map_cons, copySrs, hwd, ok_bind, List.contains_eq_mem, hin, decide_false, copy_one h hn, h1]
        simp
      · intro m hm
        rcases List.mem_cons.1 hm with rfl | hm
        · have e : fs' (pathAt w.work m) = fs (pathAt w.find.root m) := by
            rw [h5 _ ?_, FS.set_eq]
            intro x hx e
            exact hd.1 (hinj x ((h2 x).1 hx).1 e.symm ▸ ((h2 x).1 hx).1)
          refine ⟨e, ?_⟩
          rw [e]
          obtain ⟨ns, s, name, hs, hmf, rfl⟩ := hn
          exact (h.disk.files ns s hs name ((h.find.files ns s hs).2 name hmf).2).2 hmf
        · obtain ⟨e1, e2⟩ := h4 m hm
          rw [FS.set_ne _ _ (Ne.symm (h.away _ _))] at e1
          exact ⟨e1, e2⟩
      · intro p hp
        rw [h5 p fun x hx => hp x (by simp [hx]), FS.set_ne _ _ (hp n (by simp))]

theorem lang_exact (s : Str) : HasLang (rxExact s) fun u => u = s := by
  induction s with
  | nil => exact lang_eps
  | cons x s ih =>
    refine lang_congr (lang_seq (lang_cls _) ih) fun u => ?_
    constructor
    · rintro ⟨a, b, rfl, ⟨c, rfl, h1⟩, rfl⟩
      rw [beq_iff_eq] at h1
      rw [h1]; rfl
    · rintro rfl
      exact ⟨[x], s, rfl, ⟨x, rfl, by simp⟩, rfl⟩

theorem lang_words {ws : List Str} (h : ∀ s ∈ ws, ∀ x ∈ s, ¬ (0x41 ≤ x ∧ x ≤ 0x5A)) : HasLang (rxWords ws) fun u => ∃ s ∈ ws, SameWord u s := by
  induction ws with
  | nil =>
    refine lang_congr (lang_cls _) fun u => ?_
    simp
  | cons s ws ih =>
    refine lang_congr (lang_alt (lang_word (h s (by simp))) (ih fun t ht => h t (by simp [ht]))) fun u => ?_
    simp

theorem dot_all {u : Str} : (∀ c ∈ u, rxDot c = true) ↔ 0x0A ∉ u := by
  constructor
  · intro h hm
    have := h _ hm
    simp [rxDot] at this
  · intro h c hc
    simp only [rxDot, bne_iff_ne, ne_eq]
    rintro rfl
    exact h hc

/-- `re.match` of a pattern. -/
theorem match_lang {x : Rx} {L : Str → Prop} (hx : HasLang x L) (s : Str) : x.test s = true ↔ ∃ u v, s = u ++ v ∧ L u := by
  rw [test_iff]
  constructor
  · rintro ⟨z, hz⟩
    obtain ⟨u, v, rfl, hu, _⟩ := (hx _ _ _).1 hz
    exact ⟨u, v, rfl, hu⟩
  · rintro ⟨u, v, rfl, hu⟩
    exact ⟨_, (hx _ _ _).2 ⟨u, v, rfl, hu, rfl⟩⟩

/-- A pattern with `.*` around it. -/
theorem lang_around {x : Rx} {L : Str → Prop} (hx : HasLang x fun u => ∃ v b, u = v ++ b ∧ L v ∧ 0x0A ∉ b) (s : Str) :
    (Rx.seq (.many rxDot) x).test s = true ↔ SaysIn s L := by
  rw [match_lang (lang_seq (lang_many _) hx)]
  constructor
  · rintro ⟨_, v, rfl, a, _, rfl, ha, m, b, rfl, hm, _⟩
    exact ⟨a, m, b ++ v, by simp, hm, dot_all.1 ha⟩
  · rintro ⟨a, m, b, rfl, hm, ha⟩
    exact ⟨a ++ m, b, rfl, a, m, rfl, dot_all.2 ha, m, [], by simp, hm, by simp⟩

/-- C95: the names of fixes whose archive is stored. -/
theorem fix_names (s : Str) : storableFix s = true ↔ FixName s := by
  unfold storableFix FixName
  rw [Bool.or_eq_true, Bool.or_eq_true, Bool.or_eq_true, or_assoc, or_assoc]
  refine or_congr (lang_around (lang_congr (lang_seq (lang_words (by decide)) (lang_seq (lang_opt (lang_cls _)) (lang_seq (lang_words (by decide)) (lang_many _)))) fun u => ?_) s)
    (or_congr (lang_around (lang_congr (lang_seq (lang_exact _) (lang_seq (lang_alt (lang_exact _) (lang_exact _)) (lang_seq (lang_cls _) (lang_many _)))) fun u => ?_) s)
    (or_congr (lang_around (lang_congr (lang_seq (lang_exact _) (lang_seq (lang_cls _) (lang_seq (lang_exact _) (lang_many _)))) fun u => ?_) s)
      (lang_around (lang_congr (lang_seq (lang_exact _) (lang_seq (lang_cls _) (lang_seq (lang_exact _) (lang_seq (lang_cls _) (lang_seq (lang_exact _) (lang_many _)))))) fun u => ?_) s)))
  · constructor
    · rintro ⟨x', _, rfl, ⟨x, hx, hxx⟩, sep, _, rfl, hsep, y', b, rfl, ⟨y, hy, hyy⟩, hb⟩
      obtain ⟨x, hx1, rfl⟩ := List.mem_map.1 hx
      obtain ⟨y, hy1, rfl⟩ := List.mem_map.1 hy
      refine ⟨x' ++ sep ++ y', b, by simp, ⟨x, y, sep, hx1, hy1, ?_, x', y', hxx, hyy, rfl⟩, dot_all.1 hb⟩
      rcases hsep with ⟨c, rfl, hc⟩ | rfl
      · exact Or.inr ⟨c, by simpa [rxDot] using hc, rfl⟩
      · exact Or.inl rfl
    · rintro ⟨_, b, rfl, ⟨x, y, sep, hx, hy, hsep, x', y', hxx, hyy, rfl⟩, hb⟩
      refine ⟨x', sep ++ (y' ++ b), by simp, ⟨_, List.mem_map_of_mem hx, hxx⟩, sep, y' ++ b, rfl, ?_, y', b, rfl, ⟨_, List.mem_map_of_mem hy, hyy⟩, dot_all.2 hb⟩
      rcases hsep with rfl | ⟨c, hc, rfl⟩
      · exact Or.inr rfl
      · exact Or.inl ⟨c, rfl, by simpa [rxDot] using hc⟩
  · constructor
    · rintro ⟨_, _, rfl, rfl, f, _, rfl, hf, _, b, rfl, ⟨c, rfl, hc⟩, hb⟩
      simp only [Bool.or_eq_true, beq_iff_eq] at hc
      refine ⟨str "." ++ f ++ [c], b, by simp, ?_, dot_all.1 hb⟩
      rcases hf with rfl | rfl <;> rcases hc with rfl | rfl <;> decide
    · rintro ⟨v, b, rfl, hv, hb⟩
      have : ∃ f c, (f = str "FiX" ∨ f = str "FIX") ∧ (c = 0x2E ∨ c = 0x2D) ∧ v = str "." ++ (f ++ [c]) := by
        rcases hv with rfl | rfl | rfl | rfl
        · exact ⟨str "FiX", 0x2E, by decide, by decide, by decide⟩
        · exact ⟨str "FiX", 0x2D, by decide, by decide, by decide⟩
        · exact ⟨str "FIX", 0x2E, by decide, by decide, by decide⟩
        · exact ⟨str "FIX", 0x2D, by decide, by decide, by decide⟩
      obtain ⟨f, c, hf, hc, rfl⟩ := this
      exact ⟨_, f ++ ([c] ++ b), by simp, rfl, f, [c] ++ b, rfl, hf, [c], b, rfl, ⟨c, rfl, by simpa using hc⟩, dot_all.2 hb⟩
  · constructor
    · rintro ⟨_, _, rfl, rfl, _, _, rfl, ⟨c, rfl, hc⟩, _, b, rfl, rfl, hb⟩
      exact ⟨_, b, by simp, ⟨c, by simpa [rxDot] using hc, rfl⟩, dot_all.1 hb⟩
    · rintro ⟨_, b, rfl, ⟨c, hc, rfl⟩, hb⟩
      exact ⟨_, [c] ++ (str "Fix-" ++ b), by simp, rfl, [c], _, rfl, ⟨c, rfl, by simpa [rxDot] using hc⟩, _, b, rfl, rfl, dot_all.2 hb⟩
  · constructor
    · rintro ⟨_, _, rfl, rfl, _, _, rfl, ⟨c, rfl, hc⟩, _, _, rfl, rfl, _, _, rfl, ⟨d, rfl, hd⟩, _, b, rfl, rfl, hb⟩
      exact ⟨_, b, by simp, ⟨c, d, by simpa [rxDot] using hc, by simpa [rxDot] using hd, rfl⟩, dot_all.1 hb⟩
    · rintro ⟨_, b, rfl, ⟨c, d, hc, hd, rfl⟩, hb⟩
      exact ⟨_, [c] ++ (str "REPACK" ++ ([d] ++ (str "Fix-" ++ b))), by simp, rfl, [c], _, rfl, ⟨c, rfl, by simpa [rxDot] using hc⟩, _, _, rfl, rfl,
        [d], _, rfl, ⟨d, rfl, by simpa [rxDot] using hd⟩, _, b, rfl, rfl, dot_all.2 hb⟩

/-- C95: the archive of a release that is a fix is stored when the release has one SFV file that lists one file, it is not on
the list of exceptions, and it is not there as a proof already. -/
theorem fix_stored {w : CopyWorld} {fs : FS} (h : CopyOk w fs) (black : List Str) (listed : Str → Nat) (sfv : Str) {rar : List Str}
    (hr : FileOver w.find.tree rar) (copied : List Str) :
    (FixName (basename w.find.root) ∧ listed sfv = 1 ∧ basename w.find.root ∉ black ∧ pathAt w.work rar ∉ copied →
      copyFix w fs black listed [sfv] [pathAt w.find.root rar] copied =
        .ok (fs.set (pathAt w.work rar) (fs (pathAt w.find.root rar)), copied ++ [pathAt w.work rar])) ∧
    (¬ (FixName (basename w.find.root) ∧ listed sfv = 1 ∧ basename w.find.root ∉ black ∧ pathAt w.work rar ∉ copied) →
      copyFix w fs black listed [sfv] [pathAt w.find.root rar] copied = .ok (fs, copied)) := by
  have hpl := over_plain h.find.names h.find.files h.dots hr
  have hne : rar ≠ [] := by
    obtain ⟨ns, s, name, _, _, rfl⟩ := hr
    simp
  have hwd : workDirFile w (pathAt w.find.root rar) = .ok (pathAt w.work rar) := by
    unfold workDirFile
    rw [relpath_below h.cwd h.find.root.1 hne hpl]
    simp only [ok_bind, join_below h.work hne hpl]
    rfl
  simp only [copyFix, hwd, ok_bind, copy_one h hr]
  constructor
  · rintro ⟨h1, h2, h3, h4⟩
    rw [if_pos (by simp [(fix_names _).2 h1, h2, h3]), if_neg (by simpa using h4)]
    rfl
  · intro hno
    by_cases hc : (storableFix (basename w.find.root) && listed sfv == 1 && !black.contains (basename w.find.root)) = true
    · rw [if_pos hc]
      simp only [Bool.and_eq_true, fix_names, beq_iff_eq, Bool.not_eq_true', List.contains_eq_mem, decide_eq_false_iff_not] at hc
      rw [if_pos]
      · rfl
      · simp only [List.contains_eq_mem, decide_eq_true_eq]
        exact Classical.byContradiction fun hin => hno ⟨hc.1.1, hc.1.2, hc.2, hin⟩
    · rw [if_neg hc]

/-- C95: and no archive is stored in any other case. -/
theorem fix_others (w : CopyWorld) (fs : FS) (black : List Str) (listed : Str → Nat) (mainSfvs mainRars copied : List Str)
    (h : mainSfvs.length ≠ 1 ∨ mainRars.length ≠ 1) : copyFix w fs black listed mainSfvs mainRars copied = .ok (fs, copied) := by
  unfold copyFix
  split
  · simp at h
  · rfl

/-! ### Examples and violations -/

/-- A release with an NFO file, a log and a folder with a cue sheet. -/
def exCopy (files : List Str) : CopyWorld where
  find := { exWorld89 "/rel/A-GRP" [] with tree := .mk files (.cons (str "CD1") (.mk [str "a.cue", str "b.jpg"] .nil) .nil) }
  cwd := str "/"
  listdir := fun p =>
    if p = str "/rel/A-GRP" then some (str "CD1" :: files) else if p = str "/rel/A-GRP/CD1" then some [str "a.cue", str "b.jpg"] else none
  work := str "/tmp/w"

def exDisk95 (files : List Str) : FS := fun p =>
  if p = str "/rel/A-GRP/CD1/a.cue" then some [9, 9]
  else if p = str "/rel/A-GRP/CD1/b.jpg" then some [8]
  else if p ∈ files.map fun f => str "/rel/A-GRP/" ++ f then some (p.map fun c => UInt8.ofNat c) else none

def exFiles : List Str := [str "a.NFO", str "rushchk.log", str "rip.log", str "imdb.nfo"]

theorem exCopy_find : FindOk (exCopy exFiles).find where
  root := by unfold RootOk; decide +kernel
  names := namesOk_check (by decide +kernel)
  files := filesOk_check (by decide +kernel)
  lower := keepsLower_ascii

theorem folder_cases {t : Tree} {n : Str} {s' : Tree} (ht : t.dirs.toList = [(n, s')]) (hs' : s'.dirs.toList = []) {ns : List Str} {s : Tree}
    (h : folderAt t ns = some s) : (ns = [] ∧ s = t) ∨ (ns = [n] ∧ s = s') := by
  cases ns with
  | nil => left; simp only [folderAt, Option.some.injEq] at h; exact ⟨rfl, h.symm⟩
  | cons a ns =>
    right
    simp only [folderAt, ht] at h
    by_cases ha : n = a
    · subst ha
      simp only [List.find?_cons, beq_self_eq_true, Option.map_some, Option.bind_some] at h
      cases ns with
      | nil => simp only [folderAt, Option.some.injEq] at h; exact ⟨rfl, h.symm⟩
      | cons b ns => simp [folderAt, hs'] at h
    · have : (n == a) = false := by simpa using ha
      simp [List.find?_cons, this] at h

theorem exCopy_ok : CopyOk (exCopy exFiles) (exDisk95 exFiles) where
  find := exCopy_find
  dots := by
    rintro names ⟨ns, s, name, hs, hm, rfl⟩
    rcases folder_cases (n := str "CD1") (s' := .mk [str "a.cue", str "b.jpg"] .nil) rfl rfl hs with ⟨rfl, rfl⟩ | ⟨rfl, rfl⟩
    · have : ∀ f ∈ exFiles, [0x2E] ∉ ([] ++ [f] : List Str) ∧ [0x2E, 0x2E] ∉ ([] ++ [f] : List Str) := by decide +kernel
      exact this name hm
    · have : ∀ f ∈ [str "a.cue", str "b.jpg"], [0x2E] ∉ ([str "CD1"] ++ [f] : List Str) ∧ [0x2E, 0x2E] ∉ ([str "CD1"] ++ [f] : List Str) := by decide +kernel
      exact this name hm
  cwd := by decide +kernel
  disk := by
    constructor
    · intro ns s hs
      rcases folder_cases (n := str "CD1") (s' := .mk [str "a.cue", str "b.jpg"] .nil) rfl rfl hs with ⟨rfl, rfl⟩ | ⟨rfl, rfl⟩
      · refine ⟨str "CD1" :: exFiles, by decide +kernel, fun n => ?_⟩
        show n ∈ str "CD1" :: exFiles ↔ n ∈ exFiles ∨ n ∈ [str "CD1"]
        simp only [List.mem_cons, List.not_mem_nil, or_false]
        exact or_comm
      · refine ⟨[str "a.cue", str "b.jpg"], by decide +kernel, fun n => ?_⟩
        show n ∈ [str "a.cue", str "b.jpg"] ↔ n ∈ [str "a.cue", str "b.jpg"] ∨ n ∈ []
        simp
    · intro ns s hs n hn
      have hx : ∀ p, (exDisk95 exFiles p).isSome = true ↔ p = str "/rel/A-GRP/CD1/a.cue" ∨ p = str "/rel/A-GRP/CD1/b.jpg" ∨ p ∈ exFiles.map fun f => str "/rel/A-GRP/" ++ f := by
        intro p
        unfold exDisk95
        split
        · simp [*]
        · split
          · simp [*]
          · split <;> simp_all
      rw [hx]
      rcases folder_cases (n := str "CD1") (s' := .mk [str "a.cue", str "b.jpg"] .nil) rfl rfl hs with ⟨rfl, rfl⟩ | ⟨rfl, rfl⟩
      · have e : pathAt (exCopy exFiles).find.root ([] ++ [n]) = str "/rel/A-GRP/" ++ n := by
          show str "/rel/A-GRP" ++ 0x2F :: n = _
          rw [show str "/rel/A-GRP/" = str "/rel/A-GRP" ++ [0x2F] by decide +kernel]
          simp
        rw [e]
        show _ ↔ n ∈ exFiles
        constructor
        · rintro (h | h | h)
          · rw [show str "/rel/A-GRP/CD1/a.cue" = str "/rel/A-GRP/" ++ str "CD1/a.cue" by decide +kernel] at h
            have h := List.append_cancel_left h
            subst h
            exact absurd (by decide +kernel) hn
          · rw [show str "/rel/A-GRP/CD1/b.jpg" = str "/rel/A-GRP/" ++ str "CD1/b.jpg" by decide +kernel] at h
            have h := List.append_cancel_left h
            subst h
            exact absurd (by decide +kernel) hn
          · obtain ⟨f, hf, e⟩ := List.mem_map.1 h
            exact List.append_cancel_left e ▸ hf
        · exact fun h => Or.inr (Or.inr (List.mem_map_of_mem h))
      · have e : pathAt (exCopy exFiles).find.root ([str "CD1"] ++ [n]) = str "/rel/A-GRP/" ++ (str "CD1/" ++ n) := by
          show (str "/rel/A-GRP" ++ 0x2F :: str "CD1") ++ 0x2F :: n = _
          rw [show str "/rel/A-GRP/" = str "/rel/A-GRP" ++ [0x2F] by decide +kernel, show str "CD1/" = str "CD1" ++ [0x2F] by decide +kernel]
          simp
        rw [e]
        show _ ↔ n ∈ [str "a.cue", str "b.jpg"]
        constructor
        · rintro (h | h | h)
          · rw [show str "/rel/A-GRP/CD1/a.cue" = str "/rel/A-GRP/" ++ (str "CD1/" ++ str "a.cue") by decide +kernel] at h
            rw [List.append_cancel_left (List.append_cancel_left h)]
            simp
          · rw [show str "/rel/A-GRP/CD1/b.jpg" = str "/rel/A-GRP/" ++ (str "CD1/" ++ str "b.jpg") by decide +kernel] at h
            rw [List.append_cancel_left (List.append_cancel_left h)]
            simp
          · obtain ⟨f, hf, e⟩ := List.mem_map.1 h
            have e := List.append_cancel_left e
            subst e
            have : ∀ f ∈ exFiles, 0x2F ∉ f := by decide +kernel
            exact absurd (by simp [show str "CD1/" = str "CD1" ++ [0x2F] by decide +kernel]) (this _ hf)
        · intro h
          simp only [List.mem_cons, List.not_mem_nil, or_false] at h
          rcases h with rfl | rfl
          · exact Or.inl (by decide +kernel)
          · exact Or.inr (Or.inl (by decide +kernel))
  apart := by
    intro ns s hs
    rcases folder_cases (n := str "CD1") (s' := .mk [str "a.cue", str "b.jpg"] .nil) rfl rfl hs with ⟨rfl, rfl⟩ | ⟨rfl, rfl⟩
    · have : ∀ a ∈ exFiles, ∀ b ∈ exFiles, lowerStr a = lowerStr b → a = b := by decide +kernel
      exact this
    · have : ∀ a ∈ [str "a.cue", str "b.jpg"], ∀ b ∈ [str "a.cue", str "b.jpg"], lowerStr a = lowerStr b → a = b := by decide +kernel
      exact this
  work := by unfold RootOk; decide +kernel
  away := by
    intro a b e
    have h1 := pathAt_prefix (exCopy exFiles).work a
    have h2 := pathAt_prefix (exCopy exFiles).find.root b
    rw [e] at h1
    have := List.prefix_of_prefix_length_le h1 h2 (by decide +kernel)
    exact absurd (List.isPrefixOf_iff_prefix.2 this) (by decide +kernel)

set_option maxRecDepth 100000 in
/-- The NFO file, the log of the rip and the cue sheet are copied. -/
example : (match copyExtras (exCopy exFiles) false (exDisk95 exFiles) with
    | .ok (fs', l) => l == [str "/tmp/w/a.NFO", str "/tmp/w/rip.log", str "/tmp/w/CD1/a.cue"] && fs' (str "/tmp/w/CD1/a.cue") == some [9, 9]
    | .error _ => false) = true := by decide +kernel

example : NoPartNfo (exCopy exFiles).find := by
  intro f name _ h
  exact absurd h (by show ¬ (200000 = 8); decide)

/-- A release with two NFO files that differ in case only. -/
def twoNfos : List Str := [str "Info.nfo", str "info.nfo"]

set_option maxRecDepth 100000 in
/-- C95 fails: of two files that differ in case only, one is copied twice and the other is lost. -/
theorem case_lost : ∃ (w : CopyWorld) (fs fs' : FS) (l : List Str), FindOk w.find ∧ str "/r/info.nfo" ∈ w.find.files ".nfo" ∧ fs (str "/r/info.nfo") = some [2] ∧
    copyExtras w false fs = .ok (fs', l) ∧ l = [str "/tmp/w/Info.nfo", str "/tmp/w/Info.nfo"] ∧
    ∀ p ∈ l, fs' p = some [1] := by
  refine ⟨{ find := { exWorld89 "/r" [] with tree := .mk twoNfos .nil }, cwd := str "/", listdir := fun _ => some twoNfos, work := str "/tmp/w" },
    fun p => if p = str "/r/Info.nfo" then some [1] else if p = str "/r/info.nfo" then some [2] else none, _, _, ?_, by decide +kernel, by decide +kernel, rfl, by decide +kernel, ?_⟩
  · exact ⟨by unfold RootOk; decide +kernel, namesOk_check (by decide +kernel), filesOk_check (by decide +kernel), keepsLower_ascii⟩
  · decide +kernel

/-- C95 fails: an NFO file of eight bytes with the name `o.nfo` is not stored. -/
theorem nfo_skipped : ∃ w : FindWorld, FindOk w ∧ w.files ".nfo" = [str "/r/o.nfo"] ∧ w.size (str "/r/o.nfo") = 8 ∧ extraFiles w false = .ok [] := by
  refine ⟨{ exWorld89 "/r" [] with tree := .mk [str "o.nfo"] .nil, size := fun _ => 8 }, ?_, by decide +kernel, rfl, by decide +kernel⟩
  exact ⟨by unfold RootOk; decide +kernel, namesOk_check (by decide +kernel), filesOk_check (by decide +kernel), keepsLower_ascii⟩

/-- The comment of `is_storable_fix` leaves out fixes of archives, subtitles, audio and samples.  C95 fails: their archives are stored
when the name says `.FIX` or `.FiX`. -/
theorem fix_of_subs : storableFix (str "A.Movie.SUB.FIX-GRP") = true ∧ storableFix (str "A.Movie.RAR.FiX-GRP") = true ∧
    storableFix (str "A.Movie.SAMPLE.FIX-GRP") = true ∧ storableFix (str "A.Movie.SUBFIX-GRP") = false := by decide +kernel

example : FixName (str "A.Movie.SFVFiX-GRP") ∧ ¬ FixName (str "Mr.Fix.It.DVDRip-GRP") := by
  rw [← fix_names, ← fix_names]
  decide +kernel

end Rescene.Props
