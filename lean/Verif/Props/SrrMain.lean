import Verif.Model.SrrMain
import Verif.Props.Extract
import Verif.Props.SrrCommand
import Verif.Props.SrrVerify
import Verif.Props.CreateFromExample
import Verif.Lemmas.AutoFind2
/-
C92: what the command `srr` does with an SRR file, and its exit status.
-/
namespace Rescene.Props
open Rescene Rescene.Spec

/-- The loop over items whose output paths differ. -/
theorem extractLoop_nodup {srr : Path} {ask : Path → Bool} {a : ExtractArgs} (hask : ask srr = false)
    (l : List Item) : ∀ (pre : Bytes) (fs : FS) (sel : List (Path × Bytes)),
    (∀ x ∈ l, Complete x.1 ∧ DataOk (toEntry x) ∧ (x.1.btype ≠ 0x6A → ∀ s n, x.1.kind ≠ .stored s n)) →
    fs srr = some (pre ++ itemsBytes l) → selection a (l.map toEntry) = some sel → (sel.map (·.1)).Nodup →
    ∃ fs', extractLoop srr ask a ((layout pre.length l).map (·.1)) fs =
        (fs', .ok (sel.map fun x => (x.1, (fs x.1).isNone || ask x.1))) ∧
      (∀ q, q ∉ sel.map (·.1) → fs' q = fs q) ∧
      (∀ x ∈ sel, fs' x.1 = if ((fs x.1).isNone || ask x.1) = true then some x.2 else fs x.1) := by
  induction l with
  | nil =>
    intro pre fs sel _ _ hsel _
    simp only [List.map_nil, selection, Option.some.injEq] at hsel
    subst hsel
    exact ⟨fs, rfl, fun _ _ => rfl, by simp⟩
  | cons x t ih =>
    intro pre fs sel hc hfs hsel hnd
    have e1 : pre ++ itemsBytes (x :: t) = (pre ++ itemBytes x) ++ itemsBytes t := by simp
    have e2 : pre.length + (itemBytes x).length = (pre ++ itemBytes x).length := by simp
    obtain ⟨hx1, hx2, hx3⟩ := hc x (by simp)
    have hct : ∀ y ∈ t, Complete y.1 ∧ DataOk (toEntry y) ∧ (y.1.btype ≠ 0x6A → ∀ s n, y.1.kind ≠ .stored s n) :=
      fun y hy => hc y (by simp [hy])
    simp only [layout, List.map_cons, extractLoop]
    have hbt : (at_ x.1 pre.length).btype = x.1.btype := rfl
    have hkind : (at_ x.1 pre.length).kind = x.1.kind := rfl
    have hek : (toEntry x).kind = x.1.kind := rfl
    rw [hbt, e2]
    by_cases hb : x.1.btype = 0x6A
    · obtain ⟨name, hk⟩ := dataOk_stored hx2 hb
      rw [if_pos hb]
      simp only [hkind, hk]
      simp only [List.map_cons, selection, hek, hk] at hsel
      cases hop : opath name a.extractPaths a.outFolder with
      | error e => rw [hop] at hsel; simp at hsel
      | ok out =>
        cases hos : osFileNameSrr name with
        | error e => rw [hop, hos] at hsel; simp at hsel
        | ok osName =>
          cases hst : selection a (t.map toEntry) with
          | none => rw [hop, hos, hst] at hsel; simp at hsel
          | some r =>
            rw [hop, hos, hst] at hsel
            simp only [Option.some.injEq] at hsel
            cases hs : isSelected a name out osName with
            | false =>
              rw [hs] at hsel
              simp only [hs, Bool.false_eq_true, if_false] at hsel ⊢
              subst hsel
              exact ih (pre ++ itemBytes x) fs r hct (by rw [hfs, e1]) hst hnd
            | true =>
              rw [hs] at hsel
              simp only [hs, if_true] at hsel ⊢
              subst hsel
              have hxd : (toEntry x).data = x.2 := rfl
              rw [hxd] at hnd ⊢
              rw [List.map_cons, List.nodup_cons] at hnd
              obtain ⟨hni, hnd⟩ := hnd
              have hdiff : ∀ y ∈ r, y.1 ≠ out := fun y hy he => hni (List.mem_map.2 ⟨y, hy, he⟩)
              by_cases hw : ((fs out).isNone || ask out) = true
              · have hne : srr ≠ out := by
                  rintro rfl
                  rw [hfs, hask] at hw
                  simp at hw
                have hsrr : (fs.set out (some [])) srr = some (pre ++ itemsBytes (x :: t)) := by
                  rw [FS.set_ne _ _ hne, hfs]
                have hdata : srrData (pre ++ itemsBytes (x :: t)) (at_ x.1 pre.length) = .ok x.2 := by
                  have := srrData_item (pre := pre) (rest := itemsBytes t) hx1 hx2 hb
                  rw [itemsBytes_cons]; exact this
                have hone : extractOne srr ask (at_ x.1 pre.length) out fs = (fs.set out (some x.2), .ok true) := by
                  unfold extractOne
                  rw [if_pos hw]
                  simp only [hsrr, hdata, FS.set_set]
                rw [hone]
                simp only
                obtain ⟨fs', i1, i2, i3⟩ := ih (pre ++ itemBytes x) (fs.set out (some x.2)) r hct
                  (by rw [FS.set_ne _ _ hne, hfs, e1]) hst hnd
                rw [i1]
                refine ⟨fs', ?_, ?_, ?_⟩
                · rw [List.map_cons, hw]
                  dsimp only
                  congr 3
                  refine List.map_congr_left fun y hy => ?_
                  rw [FS.set_ne _ _ (hdiff y hy)]
                · intro q hq
                  simp only [List.map_cons, List.mem_cons, not_or] at hq
                  rw [i2 q hq.2, FS.set_ne _ _ hq.1]
                · intro y hy
                  rcases List.mem_cons.1 hy with rfl | hy
                  · rw [i2 _ hni, FS.set_eq, if_pos hw]
                  · rw [i3 y hy, FS.set_ne _ _ (hdiff y hy)]
              · have hone : extractOne srr ask (at_ x.1 pre.length) out fs = (fs, .ok false) := by
                  unfold extractOne
                  rw [if_neg hw]
                rw [hone]
                simp only
                obtain ⟨fs', i1, i2, i3⟩ := ih (pre ++ itemBytes x) fs r hct (by rw [hfs, e1]) hst hnd
                rw [i1]
                refine ⟨fs', ?_, ?_, ?_⟩
                · rw [List.map_cons, Bool.eq_false_iff.2 hw]
                · intro q hq
                  simp only [List.map_cons, List.mem_cons, not_or] at hq
                  exact i2 q hq.2
                · intro y hy
                  rcases List.mem_cons.1 hy with rfl | hy
                  · rw [i2 _ hni, if_neg hw]
                  · exact i3 y hy
    · rw [if_neg hb]
      have hsel' : selection a (t.map toEntry) = some sel := by
        rw [List.map_cons] at hsel
        unfold selection at hsel
        split at hsel
        · rename_i s n hk
          exact absurd hk (hx3 hb s n)
        · exact hsel
      exact ih (pre ++ itemBytes x) fs sel hct (by rw [hfs, e1]) hsel' hnd

/-- Extracting files with different output paths. -/
theorem extractFiles_nodup {srr : Path} {ask : Path → Bool} {a : ExtractArgs} {fs : FS} {file : Bytes}
    {c : List Entry} {sel : List (Path × Bytes)} (hask : ask srr = false) (hs : fs srr = some file)
    (hc : Contents file c) (hsel : selection a c = some sel) (hnd : (sel.map (·.1)).Nodup) :
    ∃ fs', extractFiles srr ask a fs = (fs', .ok (sel.map fun x => (x.1, (fs x.1).isNone || ask x.1))) ∧
      (∀ q, q ∉ sel.map (·.1) → fs' q = fs q) ∧
      (∀ x ∈ sel, fs' x.1 = if ((fs x.1).isNone || ask x.1) = true then some x.2 else fs x.1) := by
  obtain ⟨l, hg, hf, hl, htr⟩ := items_of_contents hc
  have hra : readAll file = .ok ((layout 0 l).map (·.1)) := by simp [readAll, htr]
  unfold extractFiles
  rw [hs]
  simp only [hra]
  refine extractLoop_nodup hask l [] fs sel ?_ (by rw [hs, List.nil_append, hf]) (by rw [hl]; exact hsel) hnd
  intro x hx
  obtain ⟨h1, h2⟩ := goodItems_complete hg x hx
  exact ⟨h1, h2, kind_stored_btype h1⟩

/-- The command with one SRR file that exists, and options that go together. -/
theorem main_manage {e : SrrEnv} {o : SrrOpts} {create : List Path → FS → Option FS × Nat} {srr : Path} {rest : List Path} {fs : FS}
    (hin : ∀ f ∈ srr :: rest, (fs f).isSome = true ∧ e.lower (f.drop (f.length - 4)) ∈ [str ".srr", str ".sfv", str ".rar"])
    (hend : endsWith srr (str ".srr") = true) (htmp : ∀ d, o.tempDir = some d → d = [] ∨ e.isDir d = true)
    (hx : o.extract = false ∨ o.regex = none) :
    srrMain e o create (srr :: rest) fs = manageSrr e o srr fs := by
  unfold srrMain
  have h1 : noTemp e o = false := by
    unfold noTemp
    cases hd : o.tempDir with
    | none => rfl
    | some d =>
      rcases htmp d hd with h | h <;> simp [h]
  have h2 : (o.extract && o.regex.isSome) = false := by
    rcases hx with h | h <;> simp [h]
  have h3 : (srr :: rest).any (badInput e fs) = false := by
    rw [List.any_eq_false]
    intro f hf
    obtain ⟨a, b⟩ := hin f hf
    unfold badInput
    simp only [Bool.or_eq_true, Bool.not_eq_true', not_or, Bool.not_eq_true, Bool.not_eq_false]
    constructor
    · cases hff : fs f with
      | none => rw [hff] at a; cases a
      | some d => rfl
    · exact List.contains_iff_mem.2 b
  rw [h1, h2, h3]
  simp [hend]

/-- C92: input that does not exist, is of another type or is missing, a temporary folder that does not exist, and two ways of
extracting at once: the status is 1 and no file changes. -/
theorem main_wrong {e : SrrEnv} {o : SrrOpts} {create : List Path → FS → Option FS × Nat} {infiles : List Path} {fs : FS}
    (h : infiles = [] ∨ (∃ f ∈ infiles, fs f = none) ∨
      (∃ f ∈ infiles, ∀ x ∈ [str ".srr", str ".sfv", str ".rar"], e.lower (f.drop (f.length - 4)) ≠ x) ∨
      (∃ d, o.tempDir = some d ∧ d ≠ [] ∧ e.isDir d = false) ∨ (o.extract = true ∧ o.regex.isSome = true)) :
    srrMain e o create infiles fs = (some fs, 1) := by
  unfold srrMain
  split
  · rfl
  · rename_i h1
    split
    · rfl
    · rename_i h2
      split
      · rfl
      · rename_i h3
        rcases h with rfl | ⟨f, hf, hn⟩ | ⟨f, hf, hn⟩ | ⟨d, hd, hne, hdir⟩ | ⟨ha, hb⟩
        · rfl
        · exact absurd (List.any_eq_true.2 ⟨f, hf, by simp [badInput, hn]⟩) h3
        · refine absurd (List.any_eq_true.2 ⟨f, hf, ?_⟩) h3
          unfold badInput
          have : [str ".srr", str ".sfv", str ".rar"].contains (e.lower (f.drop (f.length - 4))) = false := by
            rw [Bool.eq_false_iff]
            intro hc
            exact hn _ (List.contains_iff_mem.1 hc) rfl
          rw [this]
          simp
        · unfold noTemp at h1
          rw [hd] at h1
          simp [hne, hdir] at h1
        · simp [ha, hb] at h2

/-- C92: listing (-l, -e) and verifying (-q) change no file, whatever is in the SRR file. -/
theorem main_reads {e : SrrEnv} {o : SrrOpts} {srr : Path} {fs : FS}
    (h : o.listInfo = true ∨ o.listDetails = true ∨ o.verify = true) : (manageSrr e o srr fs).1 = some fs := by
  unfold manageSrr
  dsimp only
  split
  · rfl
  · rename_i h1
    split
    · rfl
    · rename_i h2
      rcases h with h | h | h
      · exact absurd h h1
      · exact absurd h h2
      · rw [if_pos h]

/-- C92: verifying: status 0 is given exactly when the check of the extracted files says so. -/
theorem main_verify {e : SrrEnv} {o : SrrOpts} {srr : Path} {fs : FS} {data : Bytes} (hs : fs srr = some data)
    (h : o.verify = true) (hl : o.listInfo = false) (hd : o.listDetails = false) {n : Nat} (hn : n ≠ 99) :
    (manageSrr e o srr fs).2 = n ↔
      verifyExtracted e.lower e.upper data fs (e.walk (inFolderOf e o) fs) (inFolderOf e o) o.autoLocate = .ok n := by
  unfold manageSrr
  rw [hs]
  simp only [hl, hd, h, Bool.false_eq_true, if_false, if_true, Option.getD_some]
  cases verifyExtracted e.lower e.upper data fs (e.walk (inFolderOf e o) fs) (inFolderOf e o) o.autoLocate with
  | error x => simp [unexpected, Ne.symm hn]
  | ok s => simp

theorem rev_span {p : Nat → Bool} {a b : List Nat} {c : Nat} (ha : ∀ x ∈ a, p x = true) (hc : p c = false) :
    (a ++ c :: b).takeWhile p = a ∧ (a ++ c :: b).dropWhile p = c :: b := by
  induction a with
  | nil => simp [hc]
  | cons x a ih =>
    have := ih fun y hy => ha y (by simp [hy])
    simp [ha x (by simp), this]

/-- `os.path.splitext` of a name with ".srr" behind something that is not only dots. -/
theorem extOf_srr {stem : Str} (h : 0x2F ∉ stem) (hd : ∃ c ∈ stem, c ≠ 0x2E) : Rescene.extOf (stem ++ str ".srr") = str ".srr" := by
  have hno : 0x2F ∉ stem ++ str ".srr" := by
    have : 0x2F ∉ str ".srr" := by decide
    simp [h, this]
  unfold Rescene.extOf
  rw [basename_plain hno]
  have hr : (stem ++ str ".srr").reverse = [0x72, 0x72, 0x73] ++ 0x2E :: stem.reverse := by
    rw [List.reverse_append]; rfl
  obtain ⟨h1, h2⟩ := rev_span (p := (· != 0x2E)) (a := [0x72, 0x72, 0x73]) (b := stem.reverse) (c := 0x2E) (by decide) (by decide)
  rw [hr]
  simp only [h1, h2]
  rw [if_pos]
  · rfl
  · obtain ⟨c, hc, hne⟩ := hd
    rw [List.any_eq_true]
    exact ⟨c, List.mem_reverse.2 hc, by simpa using hne⟩

/-- The folder for extracted files: the one of -o or the working directory; with -d the one in it that has the name of the SRR. -/
def ExtractTo (e : SrrEnv) (o : SrrOpts) (srr : Path) (folder : Str) : Prop :=
  ∃ base, (o.output = some base ∧ base ≠ [] ∨ (o.output = none ∨ o.output = some []) ∧ base = e.work) ∧
    (o.parent = false ∧ folder = base ∨
      o.parent = true ∧ ∃ dir stem, srr = dir ++ stem ++ str ".srr" ∧ (dir = [] ∨ dir.getLast? = some 0x2F) ∧ 0x2F ∉ stem ∧
        (∃ c ∈ stem, c ≠ 0x2E) ∧ folder = posixJoin2 base stem)

theorem extractFolder_is {e : SrrEnv} {o : SrrOpts} {srr : Path} {folder : Str} (h : ExtractTo e o srr folder) :
    extractFolder e o srr = folder := by
  obtain ⟨base, hb, h⟩ := h
  have hbase : outFolderOf e o = base := by
    unfold outFolderOf
    rcases hb with ⟨h1, h2⟩ | ⟨h1 | h1, rfl⟩ <;> simp [h1]
    intro h3
    exact absurd h3 h2
  unfold extractFolder
  rw [hbase]
  rcases h with ⟨h1, rfl⟩ | ⟨h1, dir, stem, rfl, hdir, hno, hdots, rfl⟩
  · simp [h1]
  · rw [if_pos h1]
    have hno2 : 0x2F ∉ stem ++ str ".srr" := by
      have : 0x2F ∉ str ".srr" := by decide
      simp [hno, this]
    rw [List.append_assoc, base_app hno2 hdir, extOf_srr hno hdots]
    congr 1
    rw [List.length_append, Nat.add_sub_cancel, List.take_left]

/-- C92: extracting stored files with -x or --extract-regex: the status is 0 exactly when each selected file could be written, because
there was no such file or the user said yes, and then each has the stored bytes; otherwise the status is 1, and a file that may not be
overwritten stays as it was.  No other file changes. -/
theorem main_extract {e : SrrEnv} {o : SrrOpts} {srr : Path} {fs : FS} {file : Bytes} {c : List Entry} {sel : List (Path × Bytes)}
    {m : Option (Str → Bool)} {folder : Str} (hfolder : ExtractTo e o srr folder) (hl : o.listInfo = false) (hd : o.listDetails = false) (hv : o.verify = false)
    (hx : o.extract = true ∧ m = none ∨ o.extract = false ∧ ∃ f, o.regex = some (some f) ∧ m = some f)
    (hask : e.ask srr = false) (hs : fs srr = some file) (hc : Contents file c)
    (hsel : selection ⟨folder, o.paths, [], m⟩ c = some sel) (hnd : (sel.map (·.1)).Nodup) :
    ∃ fs' status, manageSrr e o srr fs = (some fs', status) ∧
      (status = 0 ↔ ∀ x ∈ sel, fs x.1 = none ∨ e.ask x.1 = true) ∧ (status = 0 ∨ status = 1) ∧
      (∀ x ∈ sel, if fs x.1 = none ∨ e.ask x.1 = true then fs' x.1 = some x.2 else fs' x.1 = fs x.1) ∧
      (∀ q, q ∉ sel.map (·.1) → fs' q = fs q) := by
  obtain ⟨fs', h1, h2, h3⟩ := extractFiles_nodup hask hs hc hsel hnd
  have hm : manageSrr e o srr fs = extractStatus (extractFiles srr e.ask ⟨folder, o.paths, [], m⟩ fs) := by
    unfold manageSrr
    rw [extractFolder_is hfolder]
    simp only [hl, hd, hv, Bool.false_eq_true, if_false]
    rcases hx with ⟨hx, rfl⟩ | ⟨hx, f, hf, rfl⟩
    · rw [if_pos hx]
    · rw [if_neg (by simp [hx]), hf]
  rw [hm, h1]
  have hb : ∀ x : Path × Bytes, (((fs x.1).isNone || e.ask x.1) = true) ↔ (fs x.1 = none ∨ e.ask x.1 = true) := by
    intro x; simp
  refine ⟨fs', _, rfl, ?_, ?_, ?_, h2⟩
  · split
    · rename_i ht
      simp only [List.all_map, List.all_eq_true] at ht
      simp only [true_iff]
      exact fun x hx => (hb x).1 (ht x hx)
    · rename_i ht
      simp only [List.all_map, List.all_eq_true] at ht
      simp only [Nat.succ_ne_zero, false_iff]
      exact fun h => ht fun x hx => (hb x).2 (h x hx)
  · split <;> simp
  · intro x hx
    have := h3 x hx
    by_cases hw : ((fs x.1).isNone || e.ask x.1) = true
    · rw [if_pos hw] at this
      rw [if_pos ((hb x).1 hw)]
      exact this
    · rw [if_neg hw] at this
      rw [if_neg (fun h => hw ((hb x).2 h))]
      exact this

/-- C92: an expression that cannot be compiled: the status is 1, and nothing is written. -/
theorem main_regex_wrong {e : SrrEnv} {o : SrrOpts} {srr : Path} {fs : FS} (hl : o.listInfo = false) (hd : o.listDetails = false)
    (hv : o.verify = false) (hx : o.extract = false) (hr : o.regex = some none) : manageSrr e o srr fs = (some fs, 1) := by
  unfold manageSrr
  simp [hl, hd, hv, hx, hr]

/-! ### Rebuilding -/

/-- How hints are written: `name:new` pairs with semicolons between them. -/
def hintText (l : List (Str × Str)) : Str := joinWith 0x3B (l.map fun h => h.1 ++ 0x3A :: h.2)

theorem mapM_hints {l : List (Str × Str)} (h : ∀ x ∈ l, 0x3A ∉ x.1 ∧ 0x3A ∉ x.2) :
    (l.map fun h => h.1 ++ 0x3A :: h.2).mapM hintOf = some l := by
  induction l with
  | nil => rfl
  | cons x l ih =>
    obtain ⟨h1, h2⟩ := h x (by simp)
    rw [List.map_cons, List.mapM_cons, ih fun y hy => h y (by simp [hy])]
    have : hintOf (x.1 ++ 0x3A :: x.2) = some x := by
      unfold hintOf
      rw [splitOn_append_sep h1, splitOn_of_not_mem h2]
    rw [this]
    rfl

/-- C92: hints without colons and semicolons in the names are understood; of two for one name the last one counts. -/
theorem hints_read {l : List (Str × Str)} (hne : l ≠ []) (h : ∀ x ∈ l, (0x3A ∉ x.1 ∧ 0x3A ∉ x.2) ∧ 0x3B ∉ x.1 ∧ 0x3B ∉ x.2) :
    ∃ hs, hintsOf (hintText l) = some hs ∧ (∀ x, x ∈ hs ↔ x ∈ l) ∧
      ∀ pre a b post, l = pre ++ (a, b) :: post → (∀ x ∈ post, x.1 ≠ a) → hs.lookup a = some b := by
  refine ⟨l.reverse, ?_, by simp, ?_⟩
  · unfold hintsOf
    have hsplit : splitOn 0x3B (hintText l) = l.map fun h => h.1 ++ 0x3A :: h.2 := by
      refine splitOn_joinWith (by simpa using hne) ?_
      intro p hp
      obtain ⟨x, hx, rfl⟩ := List.mem_map.1 hp
      obtain ⟨_, h1, h2⟩ := h x hx
      simp [h1, h2]
    have hemp : hintText l ≠ [] := by
      intro he
      rw [he] at hsplit
      cases l with
      | nil => exact hne rfl
      | cons x l =>
        have : splitOn 0x3B ([] : Str) = [[]] := rfl
        rw [this, List.map_cons] at hsplit
        have := (List.cons.inj hsplit).1
        simp at this
    rw [if_neg hemp, hsplit, mapM_hints fun x hx => (h x hx).1]
    rfl
  · rintro pre a b post rfl hp
    rw [List.reverse_append, List.reverse_cons, List.append_assoc, List.lookup_append]
    have : post.reverse.lookup a = none := by
      rw [List.lookup_eq_none_iff]
      intro x hx
      have := hp x (List.mem_reverse.1 hx)
      simpa using fun h => this h.symm
    rw [this]
    simp

example : hintsOf (hintText [(str "a.rar", str "b.rar"), (str "c", str "d"), (str "a.rar", str "e")]) =
    some [(str "a.rar", str "e"), (str "c", str "d"), (str "a.rar", str "b.rar")] ∧
    hintsOf (str "a.rar:C:x") = none ∧ hintsOf (str "a:b;") = none := by decide

/-- C92: a hint without a colon, or with more than one, stops the command with status 1 before anything is written. -/
theorem hint_wrong {e : SrrEnv} {o : SrrOpts} {srr : Path} {fs : FS} {h : Str} (hl : o.listInfo = false) (hd : o.listDetails = false)
    (hv : o.verify = false) (hx : o.extract = false) (hr : o.regex = none) (hst : o.storeFiles = []) (hh : o.hints ≠ [])
    (hin : h ∈ splitOn 0x3B o.hints) (hbad : (splitOn 0x3A h).length ≠ 2) : manageSrr e o srr fs = (some fs, 1) := by
  have hnone : ∀ l : List Str, h ∈ l → l.mapM hintOf = none := by
    intro l
    induction l with
    | nil => intro hm; cases hm
    | cons x l ih =>
      intro hm
      rw [List.mapM_cons]
      rcases List.mem_cons.1 hm with rfl | hm
      · have : hintOf h = none := by
          unfold hintOf
          split
          · rename_i heq
            rw [heq] at hbad
            exact absurd rfl hbad
          · rfl
        rw [this]
        rfl
      · rw [ih hm]
        cases hintOf x <;> rfl
  have : hintsOf o.hints = none := by
    unfold hintsOf
    rw [if_neg hh, hnone _ hin]
    rfl
  unfold manageSrr
  simp [hl, hd, hv, hx, hr, hst, rebuildSrr, this]

/-- Options that ask for nothing but to rebuild. -/
structure Rebuilds (e : SrrEnv) (o : SrrOpts) : Prop where
  noList : o.listInfo = false
  noDetails : o.listDetails = false
  noVerify : o.verify = false
  noExtract : o.extract = false
  noRegex : o.regex = none
  noStore : o.storeFiles = []
  temp : ∀ d, o.tempDir = some d → d = [] ∨ e.isDir d = true

theorem manage_rebuilds {e : SrrEnv} {o : SrrOpts} {srr : Path} {fs : FS} (ho : Rebuilds e o) : manageSrr e o srr fs = rebuildSrr e o srr fs := by
  unfold manageSrr
  simp [ho.noList, ho.noDetails, ho.noVerify, ho.noExtract, ho.noRegex, ho.noStore]

/-- C92: the two ways of using the command undo each other: an SRR that `srr` makes of volumes gives, with the archived files
and no other options than folders, hints and such, the volumes back, with status 0, and changes nothing but the volumes and the
extracted stored files. -/
theorem srr_commands {c : CreateArgs} {w : World} {fuel : Nat} {fs0 : FS} {srr tmp src : Path} {bytes : Bytes}
    {rars : List Path} {data : Path → Bytes} {name : Path → Str}
    -- the SRR is made
    (hmade : c.contents w fuel fs0 = .ok bytes) (hp : srr <+: tmp) (htmp : tmp ≠ srr) (hnew : fs0 tmp = none)
    (hrars : collect w fs0 fuel c.infiles = .ok rars) (hne : rars ≠ [])
    (hvols : ∀ p ∈ rars, Usual p ∧ OnlyCase w fs0 p ∧ fs0 p = some (data p) ∧ GoodVolume (data p) ∧
      srrName w c.savePaths c.folder p = .ok (name p)) :
    -- it is on disk
    (run (c.command w fuel fs0 srr tmp src true) fs0 []).1 srr = some bytes ∧
    -- and used with options that mean rebuilding
    ∀ (e : SrrEnv) (o : SrrOpts) (create : List Path → FS → Option FS × Nat) (f : Path) (hints : List (Str × Str)) (fs1 : FS)
      (ext : List Path) (out : Path → Path),
      Rebuilds e o → hintsOf o.hints = some hints → o.volume = none →
      (∀ d, o.rarDir = some d → d = [] ∨ e.hasRars d = true) →
      endsWith f (str ".srr") = true → e.lower (str ".srr") = str ".srr" → fs1 f = some bytes →
      (∀ stored, storedInput w fs0 c.savePaths c.folder c.infiles c.store = .ok stored →
        ∀ x ∈ stored, ∃ p ∈ ext, opath x.1 o.paths (outFolderOf e o) = .ok p ∧ p ≠ f) →
      (∀ p ∈ rars, opath (name p) o.paths (outFolderOf e o) = .ok (out p) ∧
        (fs1 (out p) = none ∧ out p ∉ ext ∨ e.ask (out p) = true)) →
      (rars.map out).Nodup →
      Packs (SourceIs (recArgsOf e o f hints) fs1 (rars.map out ++ ext)) none (rars.flatMap fun p => volumeParts (data p)) →
      ∃ fs2, srrMain e o create [f] fs1 = (some fs2, 0) ∧ (∀ p ∈ rars, fs2 (out p) = some (data p)) ∧
        ∀ q, q ∉ rars.map out → q ∉ ext → fs2 q = fs1 q := by
  refine ⟨?_, ?_⟩
  · rw [srr_made hmade hp htmp hnew]
    exact FS.set_eq _ _ _
  · intro e o create f hints fs1 ext out ho hh hv hr hend hlow hf hext hout hdiff hsrc
    have hsuf : f.drop (f.length - 4) = str ".srr" := by
      unfold endsWith at hend
      obtain ⟨pre, rfl⟩ := List.isSuffixOf_iff_suffix.1 hend
      have : (pre ++ str ".srr").length - 4 = pre.length := by
        rw [List.length_append]
        show pre.length + 4 - 4 = pre.length
        omega
      rw [this, List.drop_left]
    rw [main_manage (by
        intro g hg
        rw [List.mem_singleton] at hg
        subst hg
        rw [hf, hsuf, hlow]
        exact ⟨rfl, by simp⟩) hend ho.temp (Or.inl ho.noExtract), manage_rebuilds ho]
    obtain ⟨fs2, reports, h1, h2, h3⟩ := create_from_reconstruct (a := recArgsOf e o f hints) (fs1 := fs1) (ext := ext) (out := out)
      hmade hrars hne hvols hf (by simp [recArgsOf, hv]) (fun _ => hext) hout hdiff hsrc
    refine ⟨fs2, ?_, h2, h3⟩
    unfold rebuildSrr
    rw [hh]
    have : noRars e o = false := by
      unfold noRars
      cases hd : o.rarDir with
      | none => rfl
      | some d => rcases hr d hd with h | h <;> simp [h]
    simp only [this, Bool.false_eq_true, if_false, h1]

/-- The folder of an option, or the working directory without it. -/
def FolderOf (e : SrrEnv) (option : Option Str) (folder : Str) : Prop :=
  option = some folder ∧ folder ≠ [] ∨ (option = none ∨ option = some []) ∧ folder = e.work

theorem inFolder_is {e : SrrEnv} {o : SrrOpts} {folder : Str} (h : FolderOf e o.inputBase folder) : inFolderOf e o = folder := by
  unfold inFolderOf
  rcases h with ⟨h1, h2⟩ | ⟨h1 | h1, rfl⟩ <;> simp [h1]
  intro h3
  exact absurd h3 h2

theorem outFolder_is {e : SrrEnv} {o : SrrOpts} {folder : Str} (h : FolderOf e o.output folder) : outFolderOf e o = folder := by
  unfold outFolderOf
  rcases h with ⟨h1, h2⟩ | ⟨h1 | h1, rfl⟩ <;> simp [h1]
  intro h3
  exact absurd h3 h2

/-- C92: rebuilding with `srr` is `reconstruct` with the folders of -i and -o (or the working directory), the hints, and the other options
each in its place: all stored files are extracted unless one volume was asked for.  The status is 0 when `reconstruct` ends without an
exception, with the files as it leaves them, and not 0 after an exception. -/
theorem main_rebuild {e : SrrEnv} {o : SrrOpts} {srr : Path} {fs : FS} {hints : List (Str × Str)} {input output : Str} (ho : Rebuilds e o)
    (hh : hintsOf o.hints = some hints) (hr : ∀ d, o.rarDir = some d → d = [] ∨ e.hasRars d = true) (hi : FolderOf e o.inputBase input)
    (hout : FolderOf e o.output output) :
    let r := reconstruct (RecArgs.mk (srr := srr) (inFolder := input) (outFolder := output) (extractPaths := o.paths) (hints := hints) (skipCrc := o.noAutoCrc) (autoLocate := o.autoLocate)
      (empty := o.fake) (extractFiles := decide (o.volume = none)) (part := o.volume.getD []) e.ask e.abspath (walk := e.walk input) e.compress) fs
    (∀ fs' x y, r = .ok (fs', x, y) → manageSrr e o srr fs = (some fs', 0)) ∧
    ∀ err, r = .error err → (manageSrr e o srr fs).2 ≠ 0 := by
  have hargs : recArgsOf e o srr hints = (RecArgs.mk (srr := srr) (inFolder := input) (outFolder := output) (extractPaths := o.paths) (hints := hints) (skipCrc := o.noAutoCrc) (autoLocate := o.autoLocate)
      (empty := o.fake) (extractFiles := decide (o.volume = none)) (part := o.volume.getD []) e.ask e.abspath (walk := e.walk input) e.compress) := by
    unfold recArgsOf
    rw [inFolder_is hi, outFolder_is hout]
    cases o.volume <;> rfl
  have hno : noRars e o = false := by
    unfold noRars
    cases hd : o.rarDir with
    | none => rfl
    | some d => rcases hr d hd with h | h <;> simp [h]
  simp only
  rw [← hargs, manage_rebuilds ho]
  unfold rebuildSrr
  rw [hh]
  simp only [hno, Bool.false_eq_true, if_false]
  constructor
  · intro fs' x y h
    rw [h]
  · intro err h
    rw [h]
    cases err <;> simp [unexpected]

/-! ### Examples and disagreements -/

set_option maxRecDepth 100000

/-- A run in the folder /r in which the user overwrites nothing. -/
def exEnv : SrrEnv where
  lower := lowerStr
  upper := id
  work := str "/r"
  ask := fun _ => false
  abspath := id
  walk := fun _ _ => []
  compress := fun _ _ => .error .rarNotSupported
  hasRars := fun _ => false
  isDir := fun _ => true
  details := fun _ => .ok ()
  store := fun _ _ _ _ fs => (fs, .ok ())

/-- `srr a.srr -o /o -p`. -/
def exOpts : SrrOpts := { output := some (str "/o"), paths := true }

/-- The command for making SRRs is not used. -/
def noCreate (_ : List Path) (_ : FS) : Option FS × Nat := (none, 7)

/-- The hypotheses of `main_rebuild`; the SRR is missing, which gives status 99. -/
example : Rebuilds exEnv exOpts ∧ FolderOf exEnv exOpts.inputBase (str "/r") ∧ FolderOf exEnv exOpts.output (str "/o") ∧
    (manageSrr exEnv exOpts (str "/r/none.srr") (fun _ => none)).2 = 99 :=
  ⟨⟨rfl, rfl, rfl, rfl, rfl, rfl, fun _ h => by cases h⟩, Or.inr ⟨Or.inl rfl, rfl⟩, Or.inl ⟨rfl, by decide⟩, by decide +kernel⟩

example : Rebuilds exEnv exOpts := ⟨rfl, rfl, rfl, rfl, rfl, rfl, fun _ h => by cases h⟩

/-- The conclusion of `srr_commands` for two volumes. -/
theorem exCommand : ∃ srr fs2, inCreated = .ok srr ∧ srrMain exEnv exOpts noCreate [str "/r/a.srr"] (exDisk1 srr) = (some fs2, 0) ∧
    fs2 (str "/o/a.rar") = some exVol1 ∧ fs2 (str "/o/a.r00") = some exVol2 := by
  obtain ⟨srr, fs2, reports, h1, h2, h3, h4⟩ := inRebuilt
  refine ⟨srr, fs2, h1, ?_, h3, h4⟩
  have hargs : recArgsOf exEnv exOpts (str "/r/a.srr") [] = exArgs := rfl
  rw [main_manage (by
      intro f hf
      rw [List.mem_singleton] at hf
      subst hf
      exact ⟨rfl, by decide +kernel⟩) (by decide +kernel) (fun _ h => by cases h) (Or.inl rfl),
    manage_rebuilds ⟨rfl, rfl, rfl, rfl, rfl, rfl, fun _ h => by cases h⟩]
  unfold rebuildSrr
  have : hintsOf exOpts.hints = some [] := rfl
  rw [this]
  have : noRars exEnv exOpts = false := rfl
  simp only [this, Bool.false_eq_true, if_false, hargs, h2]

/-- The conditions of `main_extract` are met: -x with -d writes the stored file. -/
example : ∃ fs', srrMain exEnv { exOpts with extract := true, parent := true } noCreate [str "/r/b.srr"]
      (FS.set (fun _ => none) (str "/r/b.srr") (some exSrr)) = (some fs', 0) ∧ fs' (str "/o/b/a") = some [1, 2, 3] := by
  obtain ⟨fs', status, h1, h2, h3, h4, _⟩ := main_extract (e := exEnv) (o := { exOpts with extract := true, parent := true })
    (srr := str "/r/b.srr") (fs := FS.set (fun _ => none) (str "/r/b.srr") (some exSrr)) (file := exSrr) (c := exEntries)
    (sel := [(str "/o/b/a", [1, 2, 3])]) (m := none) (folder := str "/o/b")
    ⟨str "/o", Or.inl ⟨rfl, by decide⟩, Or.inr ⟨rfl, str "/r/", str "b", by decide, Or.inr (by decide), by decide, ⟨0x62, by decide, by decide⟩, by decide⟩⟩
    rfl rfl rfl (Or.inl ⟨rfl, rfl⟩) rfl (by decide) exSrr_contents (by decide) (by decide)
  have h0 : status = 0 := h2.2 (by
    intro x hx
    rw [List.mem_singleton] at hx
    subst hx
    exact Or.inl (by decide))
  subst h0
  refine ⟨fs', ?_, ?_⟩
  · rw [main_manage (by
      intro f hf
      rw [List.mem_singleton] at hf
      subst hf
      exact ⟨by decide, by decide +kernel⟩) (by decide +kernel) (fun _ h => by cases h) (Or.inr rfl), h1]
  · have := h4 (str "/o/b/a", [1, 2, 3]) (by simp)
    rw [if_pos (Or.inl (by decide))] at this
    exact this

/-- C92, disagreement: with a wrong file the volume that is made is wrong, and this is seen while it is made, but the status is 0. -/
theorem wrong_volume_ok : (match exCreated with
    | .error _ => false
    | .ok srr =>
      let fs1 : FS := fun p => if p = str "/r/x" then some [1, 2, 3, 4, 6] else exDisk1 srr p
      match srrMain exEnv exOpts noCreate [str "/r/a.srr"] fs1, reconstruct exArgs fs1 with
      | (some fs2, status), .ok (_, reports, _) =>
        decide (status = 0 ∧ fs2 (str "/o/cd1/a.r00") ≠ none ∧ fs2 (str "/o/cd1/a.r00") ≠ some exVol2) && !reports.isEmpty
      | _, _ => false) = true := by decide +kernel

/-- C92, disagreement: a volume that exists and may not be overwritten: nothing is rebuilt, the status is 0. -/
theorem refused_ok : (match exCreated with
    | .error _ => false
    | .ok srr =>
      let fs1 : FS := fun p => if p = str "/o/cd1/a.rar" then some [1] else exDisk1 srr p
      match srrMain exEnv exOpts noCreate [str "/r/a.srr"] fs1 with
      | (some fs2, status) => decide (status = 0 ∧ fs2 (str "/o/cd1/a.rar") = some [1] ∧ fs2 (str "/o/cd1/a.r00") = none)
      | _ => false) = true := by decide +kernel

/-- C92, disagreement: when the folder of -z has no RAR executables nothing is rebuilt, also when none are needed; the status is 0. -/
theorem no_rars_ok {e : SrrEnv} {o : SrrOpts} {srr : Path} {fs : FS} {hints : List (Str × Str)} {d : Str} (ho : Rebuilds e o)
    (hh : hintsOf o.hints = some hints) (hd : o.rarDir = some d) (hne : d ≠ []) (hr : e.hasRars d = false) :
    manageSrr e o srr fs = (some fs, 0) := by
  rw [manage_rebuilds ho]
  unfold rebuildSrr
  rw [hh]
  simp [noRars, hd, hne, hr]

/-- C92, disagreement: only the first of several SRR files is used. -/
theorem only_first {e : SrrEnv} {o : SrrOpts} {create : List Path → FS → Option FS × Nat} {srr : Path} {rest : List Path} {fs : FS}
    (hin : ∀ f ∈ srr :: rest, (fs f).isSome = true ∧ e.lower (f.drop (f.length - 4)) ∈ [str ".srr", str ".sfv", str ".rar"])
    (hend : endsWith srr (str ".srr") = true) (htmp : ∀ d, o.tempDir = some d → d = [] ∨ e.isDir d = true)
    (hx : o.extract = false ∨ o.regex = none) :
    srrMain e o create (srr :: rest) fs = srrMain e o create [srr] fs := by
  rw [main_manage hin hend htmp hx, main_manage (fun f hf => hin f (by
    rw [List.mem_singleton] at hf
    simp [hf])) hend htmp hx]

/-- C92, disagreement: an SRR file whose extension is in capitals is accepted, and then an SRR is made of it instead of
the volumes being rebuilt from it. -/
theorem capitals_created (create : List Path → FS → Option FS × Nat) (srr : Bytes) :
    let fs : FS := fun p => if p = str "A.SRR" then some srr else none
    srrMain exEnv exOpts create [str "A.SRR"] fs = create [str "A.SRR"] fs := by
  intro fs
  unfold srrMain
  have h1 : noTemp exEnv exOpts = false := rfl
  have h2 : ([str "A.SRR"].any (badInput exEnv fs)) = false := by
    have : badInput exEnv fs (str "A.SRR") = false := by
      unfold badInput
      have hf : fs (str "A.SRR") = some srr := if_pos rfl
      rw [hf]
      have : [str ".srr", str ".sfv", str ".rar"].contains (exEnv.lower ((str "A.SRR").drop ((str "A.SRR").length - 4))) = true := by decide +kernel
      rw [this]
      rfl
    simp [this]
  have h3 : endsWith (str "A.SRR") (str ".srr") = false := by decide
  have h4 : (exOpts.extract && exOpts.regex.isSome) = false := rfl
  rw [h1, h2, h4]
  simp [h3]

end Rescene.Props
