import Verif.Props.CreateFrom
import Verif.Props.ReconstructExample
/-
C69, C70: a set of two volumes, from its SFV and from its first volume.
-/
namespace Rescene.Props
open Rescene Spec

/-! ### A sorting function -/

/-- Insertion in front of the first larger element. -/
def insertBy {α : Type} (lt : α → α → Bool) (a : α) : List α → List α
  | [] => [a]
  | b :: l => if lt a b then a :: b :: l else b :: insertBy lt a l

/-- Insertion sort. -/
def sortBy {α : Type} (lt : α → α → Bool) : List α → List α
  | [] => []
  | a :: l => insertBy lt a (sortBy lt l)

theorem insertBy_perm {α : Type} (lt : α → α → Bool) (a : α) (l : List α) : (insertBy lt a l).Perm (a :: l) := by
  induction l with
  | nil => exact List.Perm.refl _
  | cons b l ih =>
    unfold insertBy
    split
    · exact List.Perm.refl _
    · exact (ih.cons b).trans (List.Perm.swap a b l)

theorem sortBy_perm {α : Type} (lt : α → α → Bool) (l : List α) : (sortBy lt l).Perm l := by
  induction l with
  | nil => exact List.Perm.refl _
  | cons a l ih => exact (insertBy_perm lt a _).trans (ih.cons a)

theorem insertBy_sorted {α : Type} {lt : α → α → Bool} {a : α} {l : List α} (hw : WeakOrderOn lt (a :: l))
    (h : l.Pairwise fun x y => lt y x = false) : (insertBy lt a l).Pairwise fun x y => lt y x = false := by
  induction l with
  | nil => simp [insertBy]
  | cons b l ih =>
    unfold insertBy
    rw [List.pairwise_cons] at h
    split
    · rename_i hab
      rw [List.pairwise_cons]
      refine ⟨fun y hy => ?_, List.pairwise_cons.2 h⟩
      rw [Bool.eq_false_iff]
      intro hya
      have hyb := hw.trans y (by simp [hy]) a (by simp) b (by simp) hya hab
      rcases List.mem_cons.1 hy with rfl | hy
      · rw [hw.irrefl y (by simp)] at hyb; cases hyb
      · rw [h.1 y hy] at hyb; cases hyb
    · rename_i hab
      have hw' : WeakOrderOn lt (a :: l) :=
        { irrefl := fun x hx => hw.irrefl x (by rcases List.mem_cons.1 hx with rfl | hx <;> simp [*])
          trans := fun x hx y hy z hz => hw.trans x (by rcases List.mem_cons.1 hx with rfl | hx <;> simp [*])
            y (by rcases List.mem_cons.1 hy with rfl | hy <;> simp [*]) z (by rcases List.mem_cons.1 hz with rfl | hz <;> simp [*])
          between := fun x hx y hy z hz => hw.between x (by rcases List.mem_cons.1 hx with rfl | hx <;> simp [*])
            y (by rcases List.mem_cons.1 hy with rfl | hy <;> simp [*]) z (by rcases List.mem_cons.1 hz with rfl | hz <;> simp [*]) }
      rw [List.pairwise_cons]
      refine ⟨fun y hy => ?_, ih hw' h.2⟩
      have hy := (insertBy_perm lt a l).subset hy
      rcases List.mem_cons.1 hy with rfl | hy
      · simpa using hab
      · exact h.1 y hy

theorem sortBy_ok {α : Type} (lt : α → α → Bool) : SortsBy lt (sortBy lt) where
  perm := sortBy_perm lt
  sorted := by
    intro l hl
    induction l with
    | nil => simp [sortBy]
    | cons a l ih =>
      have hsub : WeakOrderOn lt l :=
        { irrefl := fun x hx => hl.irrefl x (by simp [hx])
          trans := fun x hx y hy z hz => hl.trans x (by simp [hx]) y (by simp [hy]) z (by simp [hz])
          between := fun x hx y hy z hz => hl.between x (by simp [hx]) y (by simp [hy]) z (by simp [hz]) }
      have hmem : ∀ x, x ∈ a :: sortBy lt l → x ∈ a :: l := by
        intro x hx
        rcases List.mem_cons.1 hx with rfl | hx
        · simp
        · simp [(sortBy_perm lt l).subset hx]
      apply insertBy_sorted _ (ih hsub)
      exact
        { irrefl := fun x hx => hl.irrefl x (hmem x hx)
          trans := fun x hx y hy z hz => hl.trans x (hmem x hx) y (hmem y hy) z (hmem z hz)
          between := fun x hx y hy z hz => hl.between x (hmem x hx) y (hmem y hy) z (hmem z hz) }

/-! ### The set -/

/-- ASCII tables, the folder `/in` with two volumes, their SFV and another file. -/
def inWorld : World where
  dig := asciiDig
  lower := (·.map lowerA)
  sort := sortBy (sfvLt (·.map lowerA) asciiDig)
  cwd := str "/home"
  listdir := fun d => if d = str "/in" then some [str "a.sfv", str "a.r00", str "a.rar", str "a.nfo"] else none
  all := [str "/in/a.sfv", str "/in/a.r00", str "/in/a.rar", str "/in/a.nfo"]

set_option maxRecDepth 100000

theorem inWorld_ok : WorldOk inWorld where
  dig := asciiDig_ok
  lower := lowerStr_ok
  ascii := fun _ _ => rfl
  sort := sortBy_ok _
  all := by decide +kernel

/-- The SFV: the second volume, the first one, the second one again in other words. -/
def inSfv : Bytes := (str "a.r00 0123456a\r\na.rar 89abcdef\r\na.r00 0123456A\r\n").map UInt8.ofNat

/-- The disk. -/
def inDisk (p : Path) : Option Bytes :=
  if p = str "/in/a.sfv" then some inSfv else exDisk p

theorem inSfv_entries : (parseSfvData inSfv).entries =
    [⟨str "a.r00", str "0123456a"⟩, ⟨str "a.rar", str "89abcdef"⟩, ⟨str "a.r00", str "0123456A"⟩] := by decide +kernel

theorem inSfv_names : ∀ e ∈ (parseSfvData inSfv).entries, e.fileName = oldVol (str "a") 0 ∨ e.fileName = oldVol (str "a") 1 := by
  rw [inSfv_entries]
  decide +kernel

/-- The hypotheses of `sfv_input_old` hold: the volumes in their order, each once. -/
theorem inSfv_volumes : handleSfv inWorld (str "/in/a.sfv") inSfv = .ok [str "/in/a.rar", str "/in/a.r00"] := by
  have h := sfv_input_old inWorld_ok (sfile := str "/in/a.sfv") (data := inSfv) (base := str "a") (n := 2) (by decide) (by decide) (by decide)
    (by
      rw [inSfv_entries]
      intro i hi
      match i, hi with
      | 0, _ => exact ⟨⟨str "a.rar", str "89abcdef"⟩, by simp, by decide +kernel⟩
      | 1, _ => exact ⟨_, List.mem_cons_self, by decide +kernel⟩)
    (by
      intro e he _
      rcases inSfv_names e he with h | h
      · exact ⟨0, by decide, h⟩
      · exact ⟨1, by decide, h⟩)
    (by
      unfold NoContradiction
      rw [inSfv_entries]
      decide +kernel)
    (by
      unfold NothingBetween
      intro a ha b hb c hc _ hbc hca
      have h01 : oldVol (str "a") 1 < oldVol (str "a") 0 := by decide +kernel
      rcases inSfv_names a ha with ha | ha <;> rcases inSfv_names b hb with hb | hb <;> rcases inSfv_names c hc with hc | hc <;>
        rw [hc, hb] at hbc <;> rw [hc, ha] at hca
      all_goals first
        | exact absurd hbc (List.lt_irrefl _)
        | exact absurd hca (List.lt_irrefl _)
        | exact absurd (List.lt_trans h01 hbc) (List.lt_irrefl _)
        | exact absurd (List.lt_trans hca h01) (List.lt_irrefl _))
  rw [h]
  decide +kernel

/-- The hypotheses of `rar_input_old` hold. -/
theorem inRar_volumes : handleRar inWorld inDisk 9 (str "/in/a.rar") = .ok [str "/in/a.rar", str "/in/a.r00"] := by
  have hv : inDisk (str "/in/a.rar") = some exVol1 := by decide +kernel
  have hr : ∃ bs, readFirst exVol1 = .ok bs ∧ oldNaming bs = false := by
    cases h : readFirst exVol1 with
    | error e =>
      have : (readFirst exVol1).isOk = true := by decide +kernel
      rw [h] at this; cases this
    | ok bs =>
      have : (match readFirst exVol1 with | .ok bs => oldNaming bs | .error _ => true) = false := by decide +kernel
      rw [h] at this
      exact ⟨bs, rfl, this⟩
  obtain ⟨bs, h1, h2⟩ := hr
  have h := rar_input_old inWorld_ok (fs := inDisk) (base := str "/in/a") (isOld := false) (n := 2) (fuel := 9) (by decide) (by decide)
    ⟨exVol1, bs, hv, h1, (naming_iff _ _).1 h2⟩
    (Or.inr (by
      rintro ⟨p, q, d, h, hq, hd⟩
      have h5 : q.length = 5 := by have := congrArg List.length hq; simpa [str] using this
      have : (str "/in/a").length = 5 := by decide
      rw [h] at this
      simp at this
      have hp : p = [] := List.length_eq_zero_iff.1 (by omega)
      have hd : d = [] := List.length_eq_zero_iff.1 (by omega)
      rw [hp, hd] at h
      simp at h
      rw [← h] at hq
      exact absurd hq (by unfold Is; decide +kernel)))
    (by
      intro i hi
      match i, hi with
      | 0, _ => decide +kernel
      | 1, _ => decide +kernel)
    (by decide +kernel) (by decide)
  have e : oldVol (str "/in/a") 0 = str "/in/a.rar" := by decide +kernel
  rw [e] at h
  rw [h]
  decide +kernel

/-- The created SRR. -/
def inCreated : Res Bytes := createFrom inWorld 9 inDisk (str "app") [str "/in/a.sfv"] (str "/in") [str "a.nfo"] false false false

theorem inUsual : Usual (str "/in/a.rar") ∧ Usual (str "/in/a.r00") := by
  unfold Usual
  decide +kernel

theorem inOnly : OnlyCase inWorld inDisk (str "/in/a.rar") ∧ OnlyCase inWorld inDisk (str "/in/a.r00") := by
  constructor <;> exact ⟨[str "a.sfv", str "a.r00", str "a.rar", str "a.nfo"], by decide +kernel, by decide +kernel, by decide +kernel⟩

/-- The hypotheses of `create_from_reconstruct` hold: the two volumes come back from the SRR that was made from
their SFV. -/
theorem inRebuilt : ∃ srr fs2 reports, inCreated = .ok srr ∧ reconstruct exArgs (exDisk1 srr) = .ok (fs2, reports, true) ∧
    fs2 (str "/o/a.rar") = some exVol1 ∧ fs2 (str "/o/a.r00") = some exVol2 := by
  have hok : inCreated.isOk = true := by decide +kernel
  cases hc : inCreated with
  | error e => rw [hc] at hok; simp [Except.isOk, Except.toBool] at hok
  | ok srr =>
    have hcol : collect inWorld inDisk 9 [str "/in/a.sfv"] = .ok [str "/in/a.rar", str "/in/a.r00"] := by
      have := collect_sfv inWorld_ok (fs := inDisk) (fuel := 9) (base := str "/in/a") (data := inSfv) (by decide +kernel)
      have e : str "/in/a" ++ str ".sfv" = str "/in/a.sfv" := by decide +kernel
      rw [e] at this
      rw [this, inSfv_volumes]
    have hst : storedInput inWorld inDisk false (str "/in") [str "/in/a.sfv"] [str "a.nfo"] =
        .ok [(str "a.nfo", str "/in/a.nfo"), (str "a.sfv", str "/in/a.sfv")] := by
      rw [stored_exact inWorld_ok]
      decide +kernel
    obtain ⟨f, g, n1, n2, n3, n4, hp⟩ := exParts
    have hp : ([str "/in/a.rar", str "/in/a.r00"].flatMap fun p => volumeParts (if p = str "/in/a.rar" then exVol1 else exVol2)) =
        [⟨0x8002, f, [1, 2]⟩, ⟨0x8001, g, [3, 4, 5]⟩] := by
      rw [← hp]
      simp only [exVols, List.flatMap_cons, List.flatMap_nil, if_true]
      rw [if_neg (by decide +kernel)]
    obtain ⟨fs2, reports, h1, h2, _⟩ := create_from_reconstruct (a := exArgs) (fs1 := exDisk1 srr) (ext := [str "/o/a.nfo", str "/o/a.sfv"])
      (data := fun p => if p = str "/in/a.rar" then exVol1 else exVol2) (name := basename)
      (out := fun p => str "/o/" ++ basename p) hc hcol (by simp)
      (by
        intro v hv
        simp only [List.mem_cons, List.not_mem_nil, or_false] at hv
        rcases hv with rfl | rfl
        · exact ⟨inUsual.1, inOnly.1, by rw [if_pos rfl]; decide +kernel, by rw [if_pos rfl]; exact exVol1_good, rfl⟩
        · exact ⟨inUsual.2, inOnly.2, by rw [if_neg (by decide +kernel)]; decide +kernel, by rw [if_neg (by decide +kernel)]; exact exVol2_good, rfl⟩)
      (by simp [exDisk1, exArgs]) rfl
      (by
        intro _ stored hs x hx
        rw [hst] at hs
        simp only [Except.ok.injEq] at hs
        subst hs
        simp only [List.mem_cons, List.not_mem_nil, or_false] at hx
        rcases hx with rfl | rfl
        · exact ⟨str "/o/a.nfo", by simp, by decide +kernel, by decide +kernel⟩
        · exact ⟨str "/o/a.sfv", by simp, by decide +kernel, by decide +kernel⟩)
      (by
        intro v hv
        simp only [List.mem_cons, List.not_mem_nil, or_false] at hv
        rcases hv with rfl | rfl
        · exact ⟨by decide +kernel, Or.inl ⟨by
          unfold exDisk1
          rw [if_neg (by decide +kernel), if_neg (by decide +kernel)], by decide +kernel⟩⟩
        · exact ⟨by decide +kernel, Or.inl ⟨by
          unfold exDisk1
          rw [if_neg (by decide +kernel), if_neg (by decide +kernel)], by decide +kernel⟩⟩)
      (by decide +kernel)
      (by
        rw [hp]
        refine Packs.starts (rest := [3, 4, 5]) (by simp) ?_ ?_
        · unfold SourceIs
          rw [if_neg (by dsimp only; decide)]
          refine ⟨str "x", [1, 2, 3, 4, 5], Or.inr ⟨rfl, by dsimp only; rw [n1]; decide +kernel⟩, by decide +kernel, ?_, Or.inl n3.symm, ?_⟩
          · unfold exDisk1
            rw [if_neg (by decide +kernel), if_pos (by decide +kernel)]
          · rw [if_pos n4]; rfl
        · dsimp only
          rw [n1, ← n2]
          exact Packs.continues (p := ⟨0x8001, g, [3, 4, 5]⟩) (rest := []) Packs.nil)
    have e1 : str "/o/" ++ basename (str "/in/a.rar") = str "/o/a.rar" := by decide +kernel
    have e2 : str "/o/" ++ basename (str "/in/a.r00") = str "/o/a.r00" := by decide +kernel
    have g1 := h2 (str "/in/a.rar") (by simp)
    have g2 := h2 (str "/in/a.r00") (by simp)
    rw [e1, if_pos rfl] at g1
    rw [e2, if_neg (by decide +kernel)] at g2
    exact ⟨srr, fs2, reports, rfl, h1, g1, g2⟩

/-! ### Capitals -/

/-- C69, disagreement: when two files differ in capitals only, the wrong one may be read although the SFV
names the other one exactly. -/
theorem capitals_wrong_file : ∃ (listdir : Str → Option (List Str)) (fs : FS) (p : Path),
    (fs p).isSome = true ∧ basename p ∈ (listdir (dirname p)).getD [] ∧
      ∃ q r, capitalizedFn (·.map lowerA) listdir (fun p => (fs p).isSome) p = .ok (q, r) ∧ q ≠ p ∧ fs q ≠ fs p :=
  ⟨fun _ => some [str "A.rar", str "a.rar"], fun p => if p = str "/in/A.rar" then some [1] else if p = str "/in/a.rar" then some [2] else none,
    str "/in/a.rar", by decide +kernel, by decide +kernel, str "/in/A.rar", str "/in/A.rar", by decide +kernel, by decide +kernel, by decide +kernel⟩

end Rescene.Props
