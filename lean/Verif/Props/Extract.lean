import Verif.Model.Extract
import Verif.Props.Edit
/-
C13: extraction returns the stored bytes and overwrites nothing.
-/
namespace Rescene.Props
open Rescene Rescene.Spec

/-- The files to extract from an SRR with these entries, in order: the output path (the
folder and the stored path, or only its last component) and the bytes; `none` when some
stored name is refused as a path. -/
def selection (a : ExtractArgs) : List Entry → Option (List (Path × Bytes))
  | [] => some []
  | e :: t =>
    match e.kind with
    | .stored _ name =>
      match opath name a.extractPaths a.outFolder, osFileNameSrr name, selection a t with
      | .ok out, .ok osName, some r => some (if isSelected a name out osName then (out, e.data) :: r else r)
      | _, _, _ => none
    | _ => selection a t

/-- C13: whatever happens, a file that exists is not changed, unless the application asks
for it. -/
theorem extract_never_overwrites (srr : Path) (ask : Path → Bool) (a : ExtractArgs) (fs : FS) (p : Path)
    (content : Bytes) (hp : fs p = some content) (hask : ask p = false) :
    (extractFiles srr ask a fs).1 p = some content := by
  have one : ∀ (b : Block) (out : Path) (fs : FS), fs p = some content →
      (extractOne srr ask b out fs).1 p = some content := by
    intro b out fs hp
    unfold extractOne
    split
    · rename_i hc
      have hne : p ≠ out := by
        rintro rfl
        simp [hp, hask] at hc
      simp only
      split
      · simp only [FS.set_ne _ _ hne]; exact hp
      · split
        · simp only [FS.set_ne _ _ hne]; exact hp
        · simp only [FS.set_ne _ _ hne]; exact hp
    · exact hp
  have loop : ∀ (l : List Block) (fs : FS), fs p = some content →
      (extractLoop srr ask a l fs).1 p = some content := by
    intro l
    induction l with
    | nil => intro fs hp; exact hp
    | cons b t ih =>
      intro fs hp
      unfold extractLoop
      split
      · split
        · split
          · split
            · rename_i out osName _ _ _
              have h1 := one b out fs hp
              cases hx : extractOne srr ask b out fs with
              | mk fs1 r =>
                rw [hx] at h1
                cases r with
                | error e => exact h1
                | ok r =>
                  have h2 := ih fs1 h1
                  simp only
                  cases hy : extractLoop srr ask a t fs1 with
                  | mk fs2 rs =>
                    rw [hy] at h2
                    cases rs with
                    | error e => exact h2
                    | ok rs => exact h2
            · exact ih fs hp
          · exact hp
          · exact hp
        · exact hp
      · exact ih fs hp
  unfold extractFiles
  split
  · exact hp
  · split
    · exact hp
    · exact loop _ _ hp

/-- The loop over items that are still intact in the SRR file. -/
theorem extractLoop_items {srr : Path} {ask : Path → Bool} {a : ExtractArgs} (hask : ask srr = false)
    (l : List Item) : ∀ (pre : Bytes) (fs : FS) (sel : List (Path × Bytes)),
    (∀ x ∈ l, Complete x.1 ∧ DataOk (toEntry x) ∧ (x.1.btype ≠ 0x6A → ∀ s n, x.1.kind ≠ .stored s n)) →
    fs srr = some (pre ++ itemsBytes l) → selection a (l.map toEntry) = some sel →
    ∃ fs' rs, extractLoop srr ask a ((layout pre.length l).map (·.1)) fs = (fs', .ok rs) ∧
      rs.map (·.1) = sel.map (·.1) ∧
      (∀ q, q ∉ sel.map (·.1) → fs' q = fs q) ∧
      (∀ s1 p d s2, sel = s1 ++ (p, d) :: s2 → p ∉ s1.map (·.1) → ask p = false →
        if fs p = none then fs' p = some d ∧ rs[s1.length]? = some (p, true)
        else fs' p = fs p ∧ rs[s1.length]? = some (p, false)) := by
  induction l with
  | nil =>
    intro pre fs sel _ _ hsel
    simp only [List.map_nil, selection, Option.some.injEq] at hsel
    subst hsel
    exact ⟨fs, [], rfl, rfl, fun _ _ => rfl, fun s1 p d s2 h => by simp at h⟩
  | cons x t ih =>
    intro pre fs sel hc hfs hsel
    have e1 : pre ++ itemsBytes (x :: t) = (pre ++ itemBytes x) ++ itemsBytes t := by simp
    have e2 : pre.length + (itemBytes x).length = (pre ++ itemBytes x).length := by simp
    obtain ⟨hx1, hx2, hx3⟩ := hc x (by simp)
    have hct : ∀ y ∈ t, Complete y.1 ∧ DataOk (toEntry y) ∧ (y.1.btype ≠ 0x6A → ∀ s n, y.1.kind ≠ .stored s n) :=
      fun y hy => hc y (by simp [hy])
    simp only [layout, List.map_cons, extractLoop]
    have hbt : (at_ x.1 pre.length).btype = x.1.btype := rfl
    have hkind : (at_ x.1 pre.length).kind = x.1.kind := rfl
    have hek : (toEntry x).kind = x.1.kind := rfl
    rw [hbt, e2]
    by_cases hb : x.1.btype = 0x6A
    · obtain ⟨name, hk⟩ := dataOk_stored hx2 hb
      rw [if_pos hb]
      simp only [hkind, hk]
      simp only [List.map_cons, selection, hek, hk] at hsel
      cases hop : opath name a.extractPaths a.outFolder with
      | error e => rw [hop] at hsel; simp at hsel
      | ok out =>
        cases hos : osFileNameSrr name with
        | error e => rw [hop, hos] at hsel; simp at hsel
        | ok osName =>
          cases hst : selection a (t.map toEntry) with
          | none => rw [hop, hos, hst] at hsel; simp at hsel
          | some r =>
            rw [hop, hos, hst] at hsel
            simp only [Option.some.injEq] at hsel
            cases hs : isSelected a name out osName with
            | false =>
              rw [hs] at hsel
              simp only [hs, Bool.false_eq_true, if_false] at hsel ⊢
              subst hsel
              exact ih (pre ++ itemBytes x) fs r hct (by rw [hfs, e1]) hst
            | true =>
              rw [hs] at hsel
              simp only [hs, if_true] at hsel ⊢
              subst hsel
              have hxd : (toEntry x).data = x.2 := rfl
              rw [hxd]
              by_cases hw : (fs out).isNone || ask out
              · -- the file is written
                have hne : srr ≠ out := by
                  rintro rfl
                  rw [hfs, hask] at hw
                  simp at hw
                have hsrr : (fs.set out (some [])) srr = some (pre ++ itemsBytes (x :: t)) := by
                  rw [FS.set_ne _ _ hne, hfs]
                have hdata : srrData (pre ++ itemsBytes (x :: t)) (at_ x.1 pre.length) = .ok x.2 := by
                  have := srrData_item (pre := pre) (rest := itemsBytes t) hx1 hx2 hb
                  rw [itemsBytes_cons]; exact this
                have hone : extractOne srr ask (at_ x.1 pre.length) out fs = (fs.set out (some x.2), .ok true) := by
                  unfold extractOne
                  rw [if_pos hw]
                  simp only [hsrr, hdata, FS.set_set]
                rw [hone]
                simp only
                obtain ⟨fs', rs, i1, i2, i3, i4⟩ := ih (pre ++ itemBytes x) (fs.set out (some x.2)) r hct
                  (by rw [FS.set_ne _ _ hne, hfs, e1]) hst
                rw [i1]
                refine ⟨fs', (out, true) :: rs, rfl, by simp [i2], ?_, ?_⟩
                · intro q hq
                  simp only [List.map_cons, List.mem_cons, not_or] at hq
                  rw [i3 q hq.2, FS.set_ne _ _ hq.1]
                · intro s1 p d s2 hsplit hnot hap
                  cases s1 with
                  | nil =>
                    simp only [List.nil_append, List.cons.injEq, Prod.mk.injEq] at hsplit
                    obtain ⟨⟨rfl, rfl⟩, rfl⟩ := hsplit
                    have hnone : fs out = none := by simpa [hap] using hw
                    rw [if_pos hnone]
                    refine ⟨?_, rfl⟩
                    by_cases hin : out ∈ r.map (·.1)
                    · -- later files with the same path are not written
                      obtain ⟨s, hs2⟩ := List.append_of_mem hin
                      have : ∃ s1 d s2, r = s1 ++ (out, d) :: s2 ∧ out ∉ s1.map (·.1) := by
                        clear i1 i2 i3 i4 hst
                        clear hs2 s
                        induction r with
                        | nil => simp at hin
                        | cons y r ihr =>
                          by_cases hy : y.1 = out
                          · exact ⟨[], y.2, r, by rw [← hy]; rfl, by simp⟩
                          · have hin' : out ∈ r.map (·.1) := by
                              simp only [List.map_cons, List.mem_cons] at hin
                              exact hin.resolve_left (fun h => hy h.symm)
                            obtain ⟨s1, d, s2, h1, h2⟩ := ihr hin'
                            refine ⟨y :: s1, d, s2, by rw [h1]; rfl, ?_⟩
                            simp only [List.map_cons, List.mem_cons, not_or]
                            exact ⟨fun h => hy h.symm, h2⟩
                      obtain ⟨s1, d', s2, h1, h2⟩ := this
                      have := i4 s1 out d' s2 h1 h2 hap
                      rw [if_neg (by rw [FS.set_eq]; simp)] at this
                      rw [this.1, FS.set_eq]
                    · rw [i3 out hin, FS.set_eq]
                  | cons y s1 =>
                    simp only [List.cons_append, List.cons.injEq] at hsplit
                    obtain ⟨rfl, hsplit⟩ := hsplit
                    simp only [List.map_cons, List.mem_cons, not_or] at hnot
                    have := i4 s1 p d s2 hsplit hnot.2 hap
                    rw [FS.set_ne _ _ hnot.1] at this
                    simpa using this
              · -- the file exists
                have hone : extractOne srr ask (at_ x.1 pre.length) out fs = (fs, .ok false) := by
                  unfold extractOne
                  rw [if_neg hw]
                rw [hone]
                simp only
                obtain ⟨fs', rs, i1, i2, i3, i4⟩ := ih (pre ++ itemBytes x) fs r hct (by rw [hfs, e1]) hst
                rw [i1]
                have hsome : fs out ≠ none := by
                  intro hc; rw [hc] at hw; simp at hw
                refine ⟨fs', (out, false) :: rs, rfl, by simp [i2], ?_, ?_⟩
                · intro q hq
                  simp only [List.map_cons, List.mem_cons, not_or] at hq
                  exact i3 q hq.2
                · intro s1 p d s2 hsplit hnot hap
                  cases s1 with
                  | nil =>
                    simp only [List.nil_append, List.cons.injEq, Prod.mk.injEq] at hsplit
                    obtain ⟨⟨rfl, rfl⟩, rfl⟩ := hsplit
                    rw [if_neg hsome]
                    refine ⟨?_, rfl⟩
                    obtain ⟨content, hcont⟩ := Option.ne_none_iff_exists'.mp hsome
                    by_cases hin : out ∈ r.map (·.1)
                    · have : ∃ s1 d s2, r = s1 ++ (out, d) :: s2 ∧ out ∉ s1.map (·.1) := by
                        clear i1 i2 i3 i4 hst
                        induction r with
                        | nil => simp at hin
                        | cons y r ihr =>
                          by_cases hy : y.1 = out
                          · exact ⟨[], y.2, r, by rw [← hy]; rfl, by simp⟩
                          · have hin' : out ∈ r.map (·.1) := by
                              simp only [List.map_cons, List.mem_cons] at hin
                              exact hin.resolve_left (fun h => hy h.symm)
                            obtain ⟨s1, d, s2, h1, h2⟩ := ihr hin'
                            refine ⟨y :: s1, d, s2, by rw [h1]; rfl, ?_⟩
                            simp only [List.map_cons, List.mem_cons, not_or]
                            exact ⟨fun h => hy h.symm, h2⟩
                      obtain ⟨s1, d', s2, h1, h2⟩ := this
                      have := i4 s1 out d' s2 h1 h2 hap
                      rw [if_neg hsome] at this
                      exact this.1
                    · exact i3 out hin
                  | cons y s1 =>
                    simp only [List.cons_append, List.cons.injEq] at hsplit
                    obtain ⟨rfl, hsplit⟩ := hsplit
                    simp only [List.map_cons, List.mem_cons, not_or] at hnot
                    have := i4 s1 p d s2 hsplit hnot.2 hap
                    simpa using this
    · rw [if_neg hb]
      have hsel' : selection a (t.map toEntry) = some sel := by
        rw [List.map_cons] at hsel
        unfold selection at hsel
        split at hsel
        · rename_i s n hk
          exact absurd hk (hx3 hb s n)
        · exact hsel
      exact ih (pre ++ itemBytes x) fs sel hct (by rw [hfs, e1]) hsel'

theorem bind_ne_ok {α β : Type} {x : Res α} {f : α → Res β} {c : Res β} {v : β} (hc : c = .ok v)
    (h : ∀ a, f a ≠ c) : (x >>= f) ≠ c := by
  subst hc
  intro he
  rw [bind_eq_ok] at he
  obtain ⟨a, _, he⟩ := he
  exact h a he

theorem ite_ne {α : Type} {p : Prop} [Decidable p] {a b c : α} (ha : a ≠ c) (hb : b ≠ c) :
    (if p then a else b) ≠ c := by split <;> assumption

theorem parseSrrHeader_ne {buf : Bytes} {flags s : Nat} {n : Str} :
    parseSrrHeader buf flags ≠ .ok (.stored s n) := by
  unfold parseSrrHeader
  refine ite_ne ?_ (by simp)
  refine bind_ne_ok rfl fun _ => bind_ne_ok rfl fun _ => by simp

theorem mkKind_stored {buf : Bytes} {bt fl add x s : Nat} {n : Str} (hb : bt ≠ 0x6A) :
    mkKind buf bt fl add ≠ .ok (x, .stored s n) := by
  unfold mkKind
  refine ite_ne ?_ ?_
  · intro hm
    rw [bind_eq_ok] at hm
    obtain ⟨k, hk1, hm⟩ := hm
    simp only [pure_eq_ok, Except.ok.injEq, Prod.mk.injEq] at hm
    rw [hm.2] at hk1
    exact parseSrrHeader_ne hk1
  · rw [if_neg hb]
    repeat' (first | refine ite_ne ?_ ?_ | refine bind_ne_ok rfl fun _ => ?_ | (simp; done))

theorem kind_stored_btype {b : Block} (h : Complete b) (hb : b.btype ≠ 0x6A) :
    ∀ s n, b.kind ≠ .stored s n := by
  intro s n hk
  have hp := h.parsed
  split at hp
  · rw [hp] at hk; simp [plainBlock] at hk
  · rw [mkBlock_ok_iff] at hp
    obtain ⟨_, _, _, _, _, _, _, add, _, hm⟩ := hp
    rw [hk] at hm
    exact mkKind_stored hb hm

/-- C13: for every selected stored file whose output path is new, the file that is there
afterwards has exactly the stored bytes (if several selected files have the same path, the
first one counts), it is reported as written, existing files are reported as not written,
and no other file changes. -/
theorem extract_result {srr : Path} {ask : Path → Bool} {a : ExtractArgs} {fs : FS} {file : Bytes}
    {c : List Entry} {sel : List (Path × Bytes)} (hask : ask srr = false) (hs : fs srr = some file)
    (hc : Contents file c) (hsel : selection a c = some sel) :
    ∃ fs' rs, extractFiles srr ask a fs = (fs', .ok rs) ∧ rs.map (·.1) = sel.map (·.1) ∧
      (∀ q, q ∉ sel.map (·.1) → fs' q = fs q) ∧
      (∀ s1 p d s2, sel = s1 ++ (p, d) :: s2 → p ∉ s1.map (·.1) → ask p = false →
        if fs p = none then fs' p = some d ∧ rs[s1.length]? = some (p, true)
        else fs' p = fs p ∧ rs[s1.length]? = some (p, false)) := by
  obtain ⟨l, hg, hf, hl, htr⟩ := items_of_contents hc
  have hra : readAll file = .ok ((layout 0 l).map (·.1)) := by simp [readAll, htr]
  unfold extractFiles
  rw [hs]
  simp only [hra]
  refine extractLoop_items hask l [] fs sel ?_ (by rw [hs, List.nil_append, hf]) (by rw [hl]; exact hsel)
  intro x hx
  obtain ⟨h1, h2⟩ := goodItems_complete hg x hx
  exact ⟨h1, h2, kind_stored_btype h1⟩

example : selection ⟨str "out", true, [], none⟩ exEntries = some [(str "out/a", [1, 2, 3])] := by decide

example : ∃ fs' rs, extractFiles (str "a.srr") (fun _ => false) ⟨str "out", true, [], none⟩
      (FS.set (fun _ => none) (str "a.srr") (some exSrr)) = (fs', .ok rs) ∧ fs' (str "out/a") = some [1, 2, 3] := by
  obtain ⟨fs', rs, h1, _, _, h4⟩ := extract_result (srr := str "a.srr") (ask := fun _ => false)
    (a := ⟨str "out", true, [], none⟩) (fs := FS.set (fun _ => none) (str "a.srr") (some exSrr))
    (sel := [(str "out/a", [1, 2, 3])]) rfl (by decide) exSrr_contents (by decide)
  have := h4 [] (str "out/a") [1, 2, 3] [] rfl (by simp) rfl
  rw [if_pos (by decide)] at this
  exact ⟨fs', rs, h1, this.1⟩

end Rescene.Props
