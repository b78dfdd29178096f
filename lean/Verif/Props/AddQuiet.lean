import Verif.Model.AddQuiet
import Verif.Props.Edit
/-
C120: adding files quietly (`usenet=True`).
-/
namespace Rescene.Props
open Rescene Rescene.Spec

theorem quietDupes_ok {files : List Str} {l : List Item} {a : Nat} (hd : ∀ x ∈ l, DataOk (toEntry x))
    (hn : ∀ x ∈ l, ∀ name, x.1.btype = 0x6A → x.1.kind = .stored x.2.length name → ∃ p, osFileNameSrr name = .ok p) :
    ∃ rest, quietDupes files ((layout a l).map (·.1)) = .ok rest ∧ ∀ f ∈ files, f ∈ rest ∨
      ∃ x ∈ l, ∃ name, x.1.btype = 0x6A ∧ x.1.kind = .stored x.2.length name ∧ osFileNameSrr name = .ok f := by
  induction l generalizing a files with
  | nil => exact ⟨files, rfl, fun f hf => Or.inl hf⟩
  | cons x t ih =>
    have ht := fun files => ih (a := a + (itemBytes x).length) (files := files) (fun y hy => hd y (by simp [hy]))
      (fun y hy => hn y (by simp [hy]))
    have up : ∀ {f : Str}, (∃ y ∈ t, ∃ name, y.1.btype = 0x6A ∧ y.1.kind = .stored y.2.length name ∧ osFileNameSrr name = .ok f) →
        ∃ y ∈ x :: t, ∃ name, y.1.btype = 0x6A ∧ y.1.kind = .stored y.2.length name ∧ osFileNameSrr name = .ok f := by
      rintro f ⟨y, hy, h⟩
      exact ⟨y, by simp [hy], h⟩
    simp only [layout, List.map_cons, quietDupes, at_]
    by_cases hb : x.1.btype = 0x6A
    · obtain ⟨name, hk⟩ := dataOk_stored (hd x (by simp)) hb
      obtain ⟨p, hp⟩ := hn x (by simp) name hb hk
      rw [if_pos hb, hk]
      simp only [hp, ok_bind]
      by_cases hm : p ∈ files
      · rw [if_pos hm]
        obtain ⟨rest, h1, h2⟩ := ht (files.erase p)
        refine ⟨rest, h1, fun f hf => ?_⟩
        by_cases hfp : f = p
        · subst hfp
          exact Or.inr ⟨x, by simp, name, hb, hk, hp⟩
        · rcases h2 f ((List.mem_erase_of_ne hfp).2 hf) with h | h
          · exact Or.inl h
          · exact Or.inr (up h)
      · rw [if_neg hm]
        obtain ⟨rest, h1, h2⟩ := ht files
        exact ⟨rest, h1, fun f hf => (h2 f hf).imp id up⟩
    · rw [if_neg hb]
      obtain ⟨rest, h1, h2⟩ := ht files
      exact ⟨rest, h1, fun f hf => (h2 f hf).imp id up⟩

theorem quietDupes_gone {files rest : List Str} {l : List Item} {a : Nat} (hnd : files.Nodup)
    (h : quietDupes files ((layout a l).map (·.1)) = .ok rest) :
    (∀ f ∈ rest, f ∈ files) ∧ ∀ x ∈ l, ∀ size name, x.1.btype = 0x6A → x.1.kind = .stored size name → ∀ f ∈ rest, osFileNameSrr name ≠ .ok f := by
  induction l generalizing a files with
  | nil =>
    cases h
    exact ⟨fun f hf => hf, by simp⟩
  | cons x t ih =>
    simp only [layout, List.map_cons, quietDupes, at_] at h
    by_cases hb : x.1.btype = 0x6A
    · rw [if_pos hb] at h
      split at h
      · rename_i size name hk
        obtain ⟨p, hp, h⟩ := bind_eq_ok.1 h
        have hx : ∀ f, f ≠ p → ∀ size' name', x.1.kind = .stored size' name' → osFileNameSrr name' ≠ .ok f := by
          intro f hf size' name' hk' ho
          rw [hk] at hk'
          cases hk'
          rw [hp] at ho
          exact hf (Except.ok.inj ho).symm
        by_cases hm : p ∈ files
        · rw [if_pos hm] at h
          obtain ⟨h1, h2⟩ := ih (hnd.erase p) h
          refine ⟨fun f hf => List.mem_of_mem_erase (h1 f hf), fun y hy size' name' hyb hyk f hf => ?_⟩
          rcases List.mem_cons.1 hy with rfl | hy
          · refine hx f ?_ size' name' hyk
            rintro rfl
            exact (hnd.mem_erase_iff.1 (h1 f hf)).1 rfl
          · exact h2 y hy size' name' hyb hyk f hf
        · rw [if_neg hm] at h
          obtain ⟨h1, h2⟩ := ih hnd h
          refine ⟨h1, fun y hy size' name' hyb hyk f hf => ?_⟩
          rcases List.mem_cons.1 hy with rfl | hy
          · refine hx f ?_ size' name' hyk
            rintro rfl
            exact hm (h1 f hf)
          · exact h2 y hy size' name' hyb hyk f hf
      · cases h
    · rw [if_neg hb] at h
      obtain ⟨h1, h2⟩ := ih hnd h
      refine ⟨h1, fun y hy size' name' hyb hyk f hf => ?_⟩
      rcases List.mem_cons.1 hy with rfl | hy
      · exact absurd hyb hb
      · exact h2 y hy size' name' hyb hyk f hf

theorem normArgs_paths (ps : List Str) : normArgs (ps.map StoreArg.path) = .ok (ps.map normpath) := by
  induction ps with
  | nil => rfl
  | cons p ps ih => rw [List.map_cons, normArgs, ih]; rfl

theorem normArgs_ok : ∀ {args : List StoreArg} {files : List Str}, normArgs args = .ok files →
    ∀ x ∈ args, ∃ p, x = .path p ∧ normpath p ∈ files
  | [], _, _, x, hx => by cases hx
  | .path p :: t, files, h, x, hx => by
    unfold normArgs at h
    obtain ⟨r, h1, h2⟩ := bind_eq_ok.1 h
    simp only [pure_eq_ok] at h2
    cases h2
    rcases List.mem_cons.1 hx with rfl | hx
    · exact ⟨p, rfl, by simp⟩
    · obtain ⟨q, h3, h4⟩ := normArgs_ok h1 x hx
      exact ⟨q, h3, by simp [h4]⟩
  | .opened _ _ :: _, _, h, _, _ => by cases h

/-- C120: whatever the list holds, every file is on disk as it was before, no temporary file is left, and when the call succeeds
everything in the list is the path of a file that is stored already. -/
theorem quiet_adds_nothing {srr tmp : Path} {fs : FS} {file : Bytes} {c : List Entry} {args : List StoreArg}
    (hne : srr ≠ tmp) (ht : fs tmp = none) (hs : fs srr = some file) (hc : Contents file c)
    (hnames : ∀ e ∈ c, ∀ name, e.isStored name → ∃ p, osFileNameSrr name = .ok p) :
    (run (addQuiet srr tmp file args) fs []).1 = fs ∧
    ((run (addQuiet srr tmp file args) fs []).2 = .ok () → ∀ x ∈ args, ∃ p, x = .path p ∧
      ∃ e ∈ c, ∃ name, e.isStored name ∧ osFileNameSrr name = .ok (normpath p)) := by
  cases hn : normArgs args with
  | error e =>
    unfold addQuiet
    rw [hn]
    exact ⟨rfl, fun h => by cases h⟩
  | ok files =>
    obtain ⟨l, hg, hf, hl, htr⟩ := items_of_contents hc
    obtain ⟨rest, h1, h2⟩ := quietDupes_ok (files := files) (a := 0) hg.data (by
      intro x hx name hb hk
      exact hnames (toEntry x) (hl ▸ List.mem_map_of_mem hx) name ⟨hb, _, hk⟩)
    have heq : run (addQuiet srr tmp file args) fs [] = run (addProg srr tmp file [] (quietNews rest)) fs [] := by
      have hdc : dupeCheck [] ((layout 0 l).map (·.1)) = .ok () := dupeCheck_ok hg.data (by
        intro x hx name hb hk
        obtain ⟨p, hp⟩ := hnames (toEntry x) (hl ▸ List.mem_map_of_mem hx) name ⟨hb, _, hk⟩
        exact ⟨p, hp, by simp⟩)
      unfold addQuiet addProg
      simp only [hn, run, readSrr_layout hc.1 htr, h1, hdc]
    have hdup : ∀ e ∈ c, ∀ name, e.isStored name → ∃ p, osFileNameSrr name = .ok p ∧ p ∉ ([] : List Str) := by
      intro e he name hst
      obtain ⟨p, hp⟩ := hnames e he name hst
      exact ⟨p, hp, by simp⟩
    rw [heq]
    cases rest with
    | nil =>
      obtain ⟨new, h3, _, h5, h6⟩ := add_inserts (news := quietNews []) (storeFiles := []) (adds := []) hne ht hs hc rfl hdup
      have hnew : new = file := by rw [h5, h6]; simp [entriesBytes]
      rw [h3, hnew]
      refine ⟨FS.set_same _ _ _ hs, fun _ x hx => ?_⟩
      obtain ⟨p, h7, h8⟩ := normArgs_ok hn x hx
      refine ⟨p, h7, ?_⟩
      rcases h2 _ h8 with h | ⟨y, hy, name, hb, hk, hp⟩
      · cases h
      · exact ⟨toEntry y, hl ▸ List.mem_map_of_mem hy, name, ⟨hb, _, hk⟩, hp⟩
    | cons r rest =>
      rw [add_bad_file (e := .attrError) ht hc (by rfl) hdup]
      exact ⟨rfl, fun h => by cases h⟩

/-- C120 is false: a path that is not stored yet and a file that is open both make it fail, though nothing is wrong with them. -/
theorem quiet_always_fails {srr tmp : Path} {fs : FS} {file : Bytes} {c : List Entry} {args : List StoreArg}
    (hne : srr ≠ tmp) (ht : fs tmp = none) (hs : fs srr = some file) (hc : Contents file c)
    (hnames : ∀ e ∈ c, ∀ name, e.isStored name → ∃ p, osFileNameSrr name = .ok p)
    (h : (∃ name content, StoreArg.opened name content ∈ args) ∨
      ∃ p, StoreArg.path p ∈ args ∧ ∀ e ∈ c, ∀ name, e.isStored name → osFileNameSrr name ≠ .ok (normpath p)) :
    ∃ e, run (addQuiet srr tmp file args) fs [] = (fs, .error e) := by
  obtain ⟨h1, h2⟩ := quiet_adds_nothing (args := args) hne ht hs hc hnames
  cases hr : run (addQuiet srr tmp file args) fs [] with
  | mk m r =>
    rw [hr] at h1 h2
    dsimp only at h1 h2
    subst h1
    cases r with
    | error e => exact ⟨e, rfl⟩
    | ok u =>
      rcases h with ⟨n, d, hm⟩ | ⟨p, hm, hno⟩
      · obtain ⟨_, h3, _⟩ := h2 rfl _ hm
        cases h3
      · obtain ⟨q, h3, e, he, name, h4, h5⟩ := h2 rfl _ hm
        cases h3
        exact absurd h5 (hno e he name h4)

/-- C120: paths of files that are stored already are skipped quietly, unless one of them is given more than once. -/
theorem quiet_skips_partial {srr tmp : Path} {fs : FS} {file : Bytes} {c : List Entry} {paths : List Str}
    (hne : srr ≠ tmp) (ht : fs tmp = none) (hs : fs srr = some file) (hc : Contents file c)
    (hnames : ∀ e ∈ c, ∀ name, e.isStored name → ∃ p, osFileNameSrr name = .ok p) (hnd : (paths.map normpath).Nodup)
    (hst : ∀ p ∈ paths, ∃ e ∈ c, ∃ name, e.isStored name ∧ osFileNameSrr name = .ok (normpath p)) :
    run (addQuiet srr tmp file (paths.map .path)) fs [] = (fs, .ok ()) := by
  obtain ⟨l, hg, hf, hl, htr⟩ := items_of_contents hc
  obtain ⟨rest, h1, _⟩ := quietDupes_ok (files := paths.map normpath) (a := 0) hg.data (by
    intro x hx name hb hk
    exact hnames (toEntry x) (hl ▸ List.mem_map_of_mem hx) name ⟨hb, _, hk⟩)
  obtain ⟨h3, h4⟩ := quietDupes_gone hnd h1
  have hrest : rest = [] := by
    cases rest with
    | nil => rfl
    | cons f rest =>
      obtain ⟨p, hp, rfl⟩ := List.mem_map.1 (h3 f (by simp))
      obtain ⟨e, he, name, ⟨hb, size, hk⟩, ho⟩ := hst p hp
      rw [← hl, List.mem_map] at he
      obtain ⟨x, hx, rfl⟩ := he
      exact absurd ho (h4 x hx size name hb hk _ (by simp))
  subst hrest
  have hdc : dupeCheck [] ((layout 0 l).map (·.1)) = .ok () := dupeCheck_ok hg.data (by
    intro x hx name hb hk
    obtain ⟨p, hp⟩ := hnames (toEntry x) (hl ▸ List.mem_map_of_mem hx) name ⟨hb, _, hk⟩
    exact ⟨p, hp, by simp⟩)
  have heq : run (addQuiet srr tmp file (paths.map .path)) fs [] = run (addProg srr tmp file [] (quietNews [])) fs [] := by
    unfold addQuiet addProg
    simp only [normArgs_paths, run, readSrr_layout hc.1 htr, h1, hdc]
  obtain ⟨new, h5, _, h6, h7⟩ := add_inserts (news := quietNews []) (storeFiles := []) (adds := []) hne ht hs hc rfl (by
    intro e he name hst
    obtain ⟨p, hp⟩ := hnames e he name hst
    exact ⟨p, hp, by simp⟩)
  have hnew : new = file := by rw [h6, h7]; simp [entriesBytes]
  rw [heq, h5, hnew, FS.set_same _ _ _ hs]

/-- The hypotheses hold: "a" is stored in the SRR of Props/Edit, "n" is not. -/
example : run (addQuiet (str "a.srr") (str "t") exSrr [.path (str "./a")]) (FS.set (fun _ => none) (str "a.srr") (some exSrr)) [] =
      (FS.set (fun _ => none) (str "a.srr") (some exSrr), .ok ()) ∧
    ∃ e, run (addQuiet (str "a.srr") (str "t") exSrr [.path (str "n")]) (FS.set (fun _ => none) (str "a.srr") (some exSrr)) [] =
      (FS.set (fun _ => none) (str "a.srr") (some exSrr), .error e) := by
  have hone : ∀ e ∈ exEntries, ∀ name, e.isStored name → name = str "a" := by
    intro e he name ⟨hb, size, hk⟩
    simp only [exEntries, List.mem_cons, List.not_mem_nil, or_false] at he
    rcases he with rfl | rfl | rfl
    · cases hk
    · cases hk; rfl
    · cases hk
  have ha : osFileNameSrr (str "a") = .ok (str "a") := by decide +kernel
  have hnames : ∀ e ∈ exEntries, ∀ name, e.isStored name → ∃ p, osFileNameSrr name = .ok p := by
    intro e he name h
    rw [hone e he name h]
    exact ⟨_, ha⟩
  have ht : FS.set (fun _ => none) (str "a.srr") (some exSrr) (str "t") = none := FS.set_ne _ _ (by decide)
  have n1 : normpath (str "./a") = str "a" := by decide +kernel
  have n2 : normpath (str "n") = str "n" := by decide +kernel
  constructor
  · refine quiet_skips_partial (paths := [str "./a"]) (by decide) ht (FS.set_eq _ _ _) exSrr_contents hnames (by simp) ?_
    intro p hp
    simp only [List.mem_cons, List.not_mem_nil, or_false] at hp
    subst hp
    exact ⟨⟨0x6A, .stored 3 (str "a"), [0x6A, 0x6A, 0x6A, 0, 0x80, 14, 0, 3, 0, 0, 0, 1, 0, 0x61], [1, 2, 3]⟩, by simp [exEntries],
      str "a", ⟨rfl, 3, rfl⟩, by rw [n1, ha]⟩
  · refine quiet_always_fails (by decide) ht (FS.set_eq _ _ _) exSrr_contents hnames (Or.inr ⟨str "n", by simp, ?_⟩)
    intro e he name h
    rw [hone e he name h, ha, n2]
    decide

end Rescene.Props
