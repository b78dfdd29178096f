import Verif.Lemmas.Edit
import Verif.Props.Edit
/-
C12: merging SRRs.
-/
namespace Rescene.Props
open Rescene Rescene.Spec

theorem complete_69 {b : Block} (h : Complete b) (hb : b.btype = 0x69) : ∃ a, b.kind = .srrHeader a := by
  have hp := h.parsed
  rw [if_neg (by rintro ⟨_, hc⟩; exact hc hb), mkBlock_ok_iff] at hp
  obtain ⟨_, _, _, _, _, _, _, add, _, hk⟩ := hp
  unfold mkKind at hk
  rw [if_pos hb, bind_eq_ok] at hk
  obtain ⟨k, hk1, hk2⟩ := hk
  simp only [pure_eq_ok, Except.ok.injEq, Prod.mk.injEq] at hk2
  rw [← hk2.2]
  unfold parseSrrHeader at hk1
  split at hk1
  · simp only [bind_eq_ok] at hk1
    obtain ⟨l, _, s, _, hk1⟩ := hk1
    simp at hk1
    exact ⟨s, hk1.symm⟩
  · simp at hk1
    exact ⟨[], hk1.symm⟩

/-- The application name after reading more names. -/
def pickName : Option Str → List Str → Option Str
  | app, [] => app
  | app, a :: t => pickName (if app = none ∨ app = some [] then some a else app) t

theorem pickName_some {app : Str} {l : List Str} : pickName (some app) l = some (firstName (app :: l)) := by
  induction l generalizing app with
  | nil => cases app <;> rfl
  | cons a t ih =>
    unfold pickName
    cases app with
    | nil => simp only [or_true, if_true]; rw [ih]; rfl
    | cons x y => simp only [reduceCtorEq, Option.some.injEq, or_self, if_false]; rw [ih]; rfl

theorem pickName_append {app : Option Str} {l1 l2 : List Str} :
    pickName app (l1 ++ l2) = pickName (pickName app l1) l2 := by
  induction l1 generalizing app with
  | nil => rfl
  | cons a t ih => simp only [List.cons_append, pickName, ih]

theorem mergeGather_items {pre : Bytes} {l : List Item} {app : Option Str}
    (hc : ∀ x ∈ l, Complete x.1 ∧ DataOk (toEntry x)) :
    mergeGather (pre ++ itemsBytes l) ((layout pre.length l).map (·.1)) app =
      .ok (pickName app (appNames (l.map toEntry)),
        (storedPart (l.map toEntry)).map (fun e => (e.raw, e.data)),
        (otherPart (l.map toEntry)).map (fun e => e.raw)) := by
  induction l generalizing pre app with
  | nil => rfl
  | cons x t ih =>
    have e1 : pre ++ itemsBytes (x :: t) = (pre ++ itemBytes x) ++ itemsBytes t := by simp
    have e2 : pre.length + (itemBytes x).length = (pre ++ itemBytes x).length := by simp
    obtain ⟨hx1, hx2⟩ := hc x (by simp)
    have h2 := fun app => ih (pre := pre ++ itemBytes x) (app := app) (fun y hy => hc y (by simp [hy]))
    rw [← e1, ← e2] at h2
    simp only [layout, List.map_cons, mergeGather]
    have hbt : (at_ x.1 pre.length).btype = x.1.btype := rfl
    have hkind : (at_ x.1 pre.length).kind = x.1.kind := rfl
    have hraw : (at_ x.1 pre.length).raw = x.1.raw := rfl
    rw [hbt, hkind, hraw]
    have tb : (toEntry x).btype = x.1.btype := rfl
    have tk : (toEntry x).kind = x.1.kind := rfl
    by_cases h69 : x.1.btype = 0x69
    · obtain ⟨a, ha⟩ := complete_69 hx1 h69
      rw [if_pos h69, ha]
      simp only [h2]
      simp [appNames, storedPart, otherPart, tb, tk, h69, ha, pickName]
    · rw [if_neg h69]
      have hno : appNames (toEntry x :: t.map toEntry) = appNames (t.map toEntry) := by
        unfold appNames
        rw [List.filterMap_cons_none]
        rw [tk]
        cases x.1.kind <;> simp [tb, h69]
      by_cases h6a : x.1.btype = 0x6A
      · rw [if_pos h6a, e1]
        have := srrData_item (pre := pre) (rest := itemsBytes t) hx1 hx2 h6a
        rw [← List.append_assoc] at this
        rw [this]
        simp only [ok_bind, ← e1, h2, hno]
        simp [storedPart, otherPart, tb, h6a]
        exact ⟨rfl, rfl⟩
      · rw [if_neg h6a]
        simp only [ok_bind, h2, hno]
        simp [storedPart, otherPart, tb, h6a, h69]
        rfl

theorem filter_items (l : List Item) (p : Nat → Bool) :
    (l.filter (fun x => p x.1.btype)).map toEntry = (l.map toEntry).filter (fun e => p e.btype) := by
  rw [List.filter_map]; rfl

theorem readable_stored {l : List Item} (hr : Readable none l) (rr : Option Bool) : Readable rr (l.filter (fun x => x.1.btype == 0x6A)) := by
  have aux : ∀ (l : List Item) (rr0 rr : Option Bool), Readable rr0 l →
      Readable rr (l.filter (fun x => x.1.btype == 0x6A)) := by
    intro l
    induction l with
    | nil => intro _ _ _; trivial
    | cons x t ih =>
      intro rr0 rr ⟨h1, h2, h3, h4⟩
      by_cases hx : x.1.btype = 0x6A
      · rw [List.filter_cons_of_pos (by simp [hx])]
        have hr : isRecovery x.1 = false := isRecovery_of_ne (by omega) (by omega)
        refine ⟨h1, ?_, fun _ hc => by rw [hr] at hc; simp at hc, ih _ _ h4⟩
        rw [h2]; unfold skippedLen; simp [hx]
      · rw [List.filter_cons_of_neg (by simp [hx])]
        exact ih _ _ h4
  exact aux l none rr hr

theorem readable_other {l : List Item} (hr : Readable none l) (rr : Option Bool) :
    Readable rr (l.filter (fun x => x.1.btype != 0x6A && x.1.btype != 0x69)) := by
  refine readable_weaken ?_ rr
  exact readable_filter hr (fun x _ hx => by simp [hx])

/-- All inputs together. -/
theorem mergeGatherAll_items {inputs : List (Bytes × List Entry)} {app : Option Str}
    (h : ∀ i ∈ inputs, Contents i.1 i.2) :
    mergeGatherAll (inputs.map (·.1)) app =
        .ok (pickName app (inputs.flatMap (fun i => appNames i.2)),
          (inputs.flatMap (fun i => storedPart i.2)).map (fun e => (e.raw, e.data)),
          (inputs.flatMap (fun i => otherPart i.2)).map (fun e => e.raw)) ∧
      ∃ s o : List Item, (∀ rr, Readable rr s) ∧ (∀ rr, Readable rr o) ∧
        s.map toEntry = inputs.flatMap (fun i => storedPart i.2) ∧
        o.map toEntry = inputs.flatMap (fun i => otherPart i.2) ∧
        (∀ x ∈ s, DataOk (toEntry x)) ∧ (∀ x ∈ o, DataOk (toEntry x) ∧ x.2 = []) := by
  induction inputs generalizing app with
  | nil => exact ⟨rfl, [], [], fun _ => trivial, fun _ => trivial, rfl, rfl, by simp, by simp⟩
  | cons i t ih =>
    obtain ⟨l, hg, hf, hl, htr⟩ := items_of_contents (h i (by simp))
    have hcd := goodItems_complete hg
    have hgather := fun app => mergeGather_items (pre := []) (app := app) hcd
    simp only [List.nil_append, List.length_nil, hf] at hgather
    have hra : readAll i.1 = .ok ((layout 0 l).map (·.1)) := by simp [readAll, htr]
    constructor
    · have h1 := (ih (app := pickName app (appNames i.2)) (fun j hj => h j (by simp [hj]))).1
      simp only [List.map_cons, mergeGatherAll, hra, ok_bind, hgather, hl, h1]
      simp [pickName_append]
    · obtain ⟨_, s, o, s1, o1, s2, o2, s3, o3⟩ := ih (app := app) (fun j hj => h j (by simp [hj]))
      refine ⟨l.filter (fun x => x.1.btype == 0x6A) ++ s,
        l.filter (fun x => x.1.btype != 0x6A && x.1.btype != 0x69) ++ o, ?_, ?_, ?_, ?_, ?_, ?_⟩
      · intro rr
        rw [readable_append]
        exact ⟨readable_stored hg.readable rr, s1 _⟩
      · intro rr
        rw [readable_append]
        exact ⟨readable_other hg.readable rr, o1 _⟩
      · rw [List.map_append, s2, filter_items l (fun b => b == 0x6A), hl]; rfl
      · rw [List.map_append, o2, filter_items l (fun b => b != 0x6A && b != 0x69), hl]; rfl
      · intro x hx
        rcases List.mem_append.mp hx with hx | hx
        · exact hg.data x (List.mem_filter.mp hx).1
        · exact s3 x hx
      · intro x hx
        rcases List.mem_append.mp hx with hx | hx
        · have hx' := List.mem_filter.mp hx
          simp only [Bool.and_eq_true, bne_iff_ne] at hx'
          exact ⟨hg.data x hx'.1, dataOk_other (hg.data x hx'.1) hx'.2.1⟩
        · exact o3 x hx

theorem appNames_ne_nil {file : Bytes} {c : List Entry} (h : Contents file c) : appNames c ≠ [] := by
  obtain ⟨l, hg, hf, hl, htr⟩ := items_of_contents h
  obtain ⟨x, t, rfl, hx⟩ := hg.head
  obtain ⟨a, ha⟩ := complete_69 (goodItems_complete hg x (by simp)).1 hx
  rw [← hl]
  simp [appNames, toEntry, ha, hx]

/-- C12: merging well-formed SRRs gives one header with the first non-empty application
name (the one asked for first), then the stored files of all inputs in order, then all
other blocks of all inputs in order, byte for byte; and it reads back as such. -/
theorem merge_result {inputs : List (Bytes × List Entry)} {app : Option Str} {hdr : Bytes}
    (hne : inputs ≠ []) (h : ∀ i ∈ inputs, Contents i.1 i.2)
    (hhdr : mkSrrHeader (firstName (app.getD [] :: inputs.flatMap (fun i => appNames i.2))) = .ok hdr) :
    ∃ new, mergeSrrs (inputs.map (·.1)) app = .ok new ∧
      new = hdr ++ entriesBytes (inputs.flatMap (fun i => storedPart i.2)) ++
        entriesBytes (inputs.flatMap (fun i => otherPart i.2)) ∧
      (20 ≤ new.length → Contents new
        (⟨0x69, .srrHeader (firstName (app.getD [] :: inputs.flatMap (fun i => appNames i.2))), hdr, []⟩ ::
          (inputs.flatMap (fun i => storedPart i.2) ++ inputs.flatMap (fun i => otherPart i.2)))) := by
  obtain ⟨hall, s, o, s1, o1, s2, o2, s3, o3⟩ := mergeGatherAll_items (app := app) h
  have hpick : pickName app (inputs.flatMap (fun i => appNames i.2)) =
      some (firstName (app.getD [] :: inputs.flatMap (fun i => appNames i.2))) := by
    cases app with
    | some a => exact pickName_some
    | none =>
      obtain ⟨i, t, rfl⟩ := List.exists_cons_of_ne_nil hne
      have := appNames_ne_nil (h i (by simp))
      obtain ⟨a, u, hau⟩ := List.exists_cons_of_ne_nil this
      rw [List.flatMap_cons, hau, List.cons_append]
      unfold pickName
      rw [if_pos (Or.inl rfl), pickName_some]
      rfl
  have hob : entriesBytes (o.map toEntry) = ((o.map toEntry).map (fun e => e.raw)).flatten := by
    clear o1 o2 hall
    induction o with
    | nil => rfl
    | cons x t ih =>
      have := (o3 x (by simp)).2
      have hx : (toEntry x).data = [] := this
      simp only [List.map_cons, entriesBytes_cons, List.flatten_cons, hx, List.nil_append,
        ih (fun y hy => o3 y (by simp [hy]))]
  refine ⟨hdr ++ (entriesBytes (s.map toEntry) ++ entriesBytes (o.map toEntry)), ?_, ?_, ?_⟩
  · unfold mergeSrrs
    simp only [hall, ok_bind, hpick, hhdr, pure_eq_ok]
    rw [hob, o2, s2]
    simp [entriesBytes, Function.comp_def]
  · rw [s2, o2, List.append_assoc]
  · intro hlen
    obtain ⟨hc, hs⟩ := complete_header hhdr
    have := contents_of_items (l := (headerBlock hdr
      (firstName (app.getD [] :: inputs.flatMap (fun i => appNames i.2))), []) :: (s ++ o)) ?_
    · rw [List.map_cons, List.map_append, s2, o2] at this
      rw [entriesBytes_map, entriesBytes_map]
      simpa [itemBytes, headerBlock, toEntry] using this
    · refine ⟨⟨hc, by rw [hs]; rfl, ?_, ?_⟩, ?_, ⟨_, _, rfl, rfl⟩, ?_⟩
      · intro _ hr
        rw [isRecovery_of_ne (by simp [headerBlock]) (by simp [headerBlock])] at hr; simp at hr
      · rw [readable_append]
        exact ⟨s1 _, o1 _⟩
      · intro x hx
        simp only [List.mem_cons, List.mem_append] at hx
        rcases hx with rfl | hx | hx
        · unfold DataOk toEntry headerBlock; simp
        · exact s3 x hx
        · exact (o3 x hx).1
      · rw [entriesBytes_map, entriesBytes_map] at hlen
        simpa [itemBytes, headerBlock] using hlen

/-- Merging an SRR with itself. -/
example : ∃ new, mergeSrrs [exSrr, exSrr] none = .ok new ∧ new.length = 61 := by
  obtain ⟨new, h1, h2, _⟩ := merge_result (inputs := [(exSrr, exEntries), (exSrr, exEntries)]) (app := none)
    (hdr := [0x69, 0x69, 0x69, 0, 0, 7, 0]) (by simp) (by
      intro i hi
      simp at hi
      subst hi
      exact exSrr_contents) (by decide)
  exact ⟨new, h1, by rw [h2]; decide⟩

end Rescene.Props
