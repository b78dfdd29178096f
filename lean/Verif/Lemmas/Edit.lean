import Verif.Lemmas.Contents
import Verif.Model.Edit
namespace Rescene
open Spec

theorem chunksVal_append {s t : List (Res Bytes)} {a b : Bytes} (hs : chunksVal s = .ok a)
    (ht : chunksVal t = .ok b) : chunksVal (s ++ t) = .ok (a ++ b) := by
  induction s generalizing a with
  | nil => simp [chunksVal] at hs; subst hs; simpa using ht
  | cons x s ih =>
    cases x with
    | error e => simp [chunksVal] at hs
    | ok x =>
      simp only [chunksVal, bind_eq_ok] at hs
      obtain ⟨r, hr, hs⟩ := hs
      simp at hs; subst hs
      simp [chunksVal, ih hr]

theorem FS.set_set (fs : FS) (p : Path) (a b : Option Bytes) : (fs.set p a).set p b = fs.set p b := by
  funext q; simp only [FS.set]; split <;> rfl

theorem FS.set_same (fs : FS) (p : Path) (a : Option Bytes) (h : fs p = a) : fs.set p a = fs := by
  funext q; simp only [FS.set]; split
  · rename_i hq; rw [hq, h]
  · rfl

theorem FS.set_eq (fs : FS) (p : Path) (a : Option Bytes) : fs.set p a p = a := by simp [FS.set]

theorem FS.set_ne (fs : FS) {p q : Path} (a : Option Bytes) (h : q ≠ p) : fs.set p a q = fs q := by
  simp [FS.set, h]

/-- Writing all chunks without faults. -/
theorem run_writeChunks {src p : Path} {cs : List (Res Bytes)} {k : Prog} {h : Err → Prog} {fs : FS}
    {c w : Bytes} (hw : chunksVal cs = .ok w) (hc : fs p = some c) :
    run (writeChunks src p cs k h) fs [] = run k (fs.set p (some (c ++ w))) [] := by
  induction cs generalizing fs c w with
  | nil =>
    simp [chunksVal] at hw; subst hw
    rw [List.append_nil, FS.set_same fs p _ hc]; rfl
  | cons x cs ih =>
    cases x with
    | error e => simp [chunksVal] at hw
    | ok b =>
      simp only [chunksVal, bind_eq_ok] at hw
      obtain ⟨r, hr, hw⟩ := hw
      simp at hw; subst hw
      simp only [writeChunks, run, step, List.headD_nil, List.tail_nil, appendTo, hc, Option.getD_some]
      rw [ih hr (FS.set_eq _ _ _), FS.set_set, List.append_assoc]

/-- An exception while writing, without other faults. -/
theorem run_writeChunks_error {src p : Path} {cs : List (Res Bytes)} {k : Prog} {h : Err → Prog} {fs : FS}
    {c : Bytes} {e : Err} (hw : chunksVal cs = .error e) (hc : fs p = some c) :
    ∃ w, run (writeChunks src p cs k h) fs [] = run (h e) (fs.set p (some w)) [] := by
  induction cs generalizing fs c with
  | nil => simp [chunksVal] at hw
  | cons x cs ih =>
    cases x with
    | error e' =>
      simp [chunksVal] at hw; subst hw
      exact ⟨c, by rw [FS.set_same fs p _ hc]; rfl⟩
    | ok b =>
      have hr : chunksVal cs = .error e := by
        simp only [chunksVal] at hw
        cases hv : chunksVal cs with
        | error e' => rw [hv] at hw; simpa using hw
        | ok v => rw [hv] at hw; simp at hw
      simp only [writeChunks, run, step, List.headD_nil, List.tail_nil, appendTo, hc, Option.getD_some]
      obtain ⟨w, hw2⟩ := ih hr (FS.set_eq fs p (some (c ++ b)))
      exact ⟨w, by rw [hw2, FS.set_set]⟩

/-- Replacing the SRR by the temporary file. -/
theorem run_replaceSrr {srr tmp : Path} {h : Err → Prog} {fs : FS} {old new : Bytes} (hne : srr ≠ tmp)
    (ht : fs tmp = none) (hs : fs srr = some old) :
    run (replaceSrr srr tmp h) (fs.set tmp (some new)) [] = (fs.set srr (some new), .ok ()) := by
  have e1 : (fs.set tmp (some new)) srr = some old := by rw [FS.set_ne _ _ hne, hs]
  have e2 : ((fs.set tmp (some new)).set srr none) tmp = some new := by
    rw [FS.set_ne _ _ (Ne.symm hne), FS.set_eq]
  simp only [replaceSrr, run, step, List.headD_nil, List.tail_nil, e1, Option.isSome_some, if_true, e2]
  congr 1
  funext q
  simp only [FS.set]
  by_cases h1 : q = srr
  · simp [h1]
  · by_cases h2 : q = tmp
    · simp [h2, ht]
    · simp [h1, h2]

/-- Chunks that copy a block of an SRR. -/
def copyChunks (file : Bytes) (b : Block) : List (Res Bytes) :=
  [.ok b.raw] ++ (if b.btype = 0x6A then [srrData file b] else [])

theorem srrData_item {pre rest : Bytes} {x : Item} (hc : Complete x.1) (hd : DataOk (toEntry x))
    (hb : x.1.btype = 0x6A) :
    srrData (pre ++ (itemBytes x ++ rest)) (at_ x.1 pre.length) = .ok x.2 := by
  obtain ⟨name, hk⟩ := dataOk_stored hd hb
  have hl := complete_6a_len hc hb
  unfold srrData
  simp only [at_, hk]
  have e : pre ++ (itemBytes x ++ rest) = (pre ++ x.1.raw) ++ (x.2 ++ rest) := by simp [itemBytes]
  have e3 : pre.length + x.1.hsize = (pre ++ x.1.raw).length := by simp; omega
  rw [e, e3, readAt_append_drop, List.take_append_of_le_length (by omega), List.take_length]

theorem copyChunks_item {pre rest : Bytes} {x : Item} (hc : Complete x.1) (hd : DataOk (toEntry x)) :
    chunksVal (copyChunks (pre ++ (itemBytes x ++ rest)) (at_ x.1 pre.length)) = .ok (itemBytes x) := by
  unfold copyChunks
  by_cases hb : x.1.btype = 0x6A
  · rw [if_pos (by exact hb), srrData_item hc hd hb]
    simp [chunksVal, itemBytes, at_]
  · rw [if_neg (by exact hb)]
    simp [chunksVal, itemBytes, at_, dataOk_other hd hb]

/-- The entries of new files. -/
def newItems : List NewFile → Res (List Item)
  | [] => .ok []
  | (_, .error e) :: _ => .error e
  | (name, .ok d) :: t => do
    let raw ← mkStored name d.length
    let r ← newItems t
    return (storedBlock raw name d.length, d) :: r

theorem chunksVal_news {news : List NewFile} {items : List Item} (h : newItems news = .ok items) :
    chunksVal (news.flatMap storeChunks) = .ok (itemsBytes items) := by
  induction news generalizing items with
  | nil => simp [newItems] at h; subst h; rfl
  | cons f t ih =>
    obtain ⟨name, d⟩ := f
    cases d with
    | error e => simp [newItems] at h
    | ok d =>
      simp only [newItems, bind_eq_ok] at h
      obtain ⟨raw, hraw, r, hr, h⟩ := h
      simp at h; subst h
      rw [List.flatMap_cons]
      refine chunksVal_append ?_ (ih hr)
      simp [storeChunks, hraw, chunksVal, itemBytes, storedBlock]

theorem newItems_props {news : List NewFile} {items : List Item} (h : newItems news = .ok items) :
    (∀ rr, Readable rr items) ∧ (∀ x ∈ items, DataOk (toEntry x) ∧ x.1.btype = 0x6A) := by
  induction news generalizing items with
  | nil => simp [newItems] at h; subst h; simp [Readable]
  | cons f t ih =>
    obtain ⟨name, d⟩ := f
    cases d with
    | error e => simp [newItems] at h
    | ok d =>
      simp only [newItems, bind_eq_ok] at h
      obtain ⟨raw, hraw, r, hr, h⟩ := h
      simp at h; subst h
      obtain ⟨i1, i2⟩ := ih hr
      obtain ⟨c, s⟩ := complete_stored hraw
      simp only [Int.toNat_natCast] at c s
      refine ⟨fun rr => ⟨c, (s rr).symm, ?_, i1 _⟩, ?_⟩
      · intro _ hr; rw [isRecovery_of_ne (by simp [storedBlock]) (by simp [storedBlock])] at hr; simp at hr
      · intro x hx
        rcases List.mem_cons.mp hx with rfl | hx
        · refine ⟨?_, rfl⟩
          unfold DataOk
          rw [if_pos (by rfl)]
          exact ⟨name, rfl⟩
        · exact i2 x hx

theorem addChunks_true {pre : Bytes} {l : List Item} {news : List NewFile}
    (hc : ∀ x ∈ l, Complete x.1 ∧ DataOk (toEntry x)) :
    chunksVal (addChunks (pre ++ itemsBytes l) news true ((layout pre.length l).map (·.1))) =
      .ok (itemsBytes l) := by
  induction l generalizing pre with
  | nil => simp [layout, addChunks, chunksVal]
  | cons x t ih =>
    have e1 : pre ++ itemsBytes (x :: t) = (pre ++ itemBytes x) ++ itemsBytes t := by simp
    have e2 : pre.length + (itemBytes x).length = (pre ++ itemBytes x).length := by simp
    have h1 := copyChunks_item (pre := pre) (rest := itemsBytes t) (hc x (by simp)).1 (hc x (by simp)).2
    have h2 := ih (pre := pre ++ itemBytes x) (fun y hy => hc y (by simp [hy]))
    rw [← e1, ← e2] at h2
    simp only [layout, List.map_cons, addChunks, Bool.true_or]
    have := chunksVal_append h1 h2
    rw [itemsBytes_cons]
    simpa [copyChunks] using this

theorem addChunks_false {pre : Bytes} {l : List Item} {news : List NewFile} {items : List Item}
    (hc : ∀ x ∈ l, Complete x.1 ∧ DataOk (toEntry x)) (hn : newItems news = .ok items) :
    chunksVal (addChunks (pre ++ itemsBytes l) news false ((layout pre.length l).map (·.1))) =
      .ok (itemsBytes (l.takeWhile (fun x => x.1.btype ≠ 0x71) ++ items ++
        l.dropWhile (fun x => x.1.btype ≠ 0x71))) := by
  induction l generalizing pre with
  | nil => simp [layout, addChunks, chunksVal_news hn]
  | cons x t ih =>
    have e1 : pre ++ itemsBytes (x :: t) = (pre ++ itemBytes x) ++ itemsBytes t := by simp
    have e2 : pre.length + (itemBytes x).length = (pre ++ itemBytes x).length := by simp
    have h1 := copyChunks_item (pre := pre) (rest := itemsBytes t) (hc x (by simp)).1 (hc x (by simp)).2
    simp only [layout, List.map_cons, addChunks, Bool.false_or]
    by_cases h71 : x.1.btype = 0x71
    · have h2 := addChunks_true (pre := pre ++ itemBytes x) (l := t) (news := news)
        (fun y hy => hc y (List.mem_cons_of_mem _ hy))
      rw [← e1, ← e2] at h2
      have h3 := chunksVal_append (chunksVal_news hn) (chunksVal_append h1 h2)
      simp only [List.takeWhile_cons, List.dropWhile_cons, h71]
      simp only [copyChunks, at_, h71] at h3 ⊢
      simpa using h3
    · have h2 := ih (pre := pre ++ itemBytes x) (fun y hy => hc y (by simp [hy]))
      rw [← e1, ← e2] at h2
      have h3 := chunksVal_append h1 h2
      simp only [List.takeWhile_cons, List.dropWhile_cons]
      have hb : (x.1.btype == 0x71) = false := by simpa using h71
      simp only [copyChunks, at_, hb] at h3 ⊢
      simpa [h71] using h3

theorem dupeCheck_ok {storeFiles : List Str} {l : List Item} {a : Nat}
    (hd : ∀ x ∈ l, DataOk (toEntry x))
    (hn : ∀ x ∈ l, ∀ name, x.1.btype = 0x6A → x.1.kind = .stored x.2.length name →
      ∃ p, osFileNameSrr name = .ok p ∧ p ∉ storeFiles) :
    dupeCheck storeFiles ((layout a l).map (·.1)) = .ok () := by
  induction l generalizing a with
  | nil => rfl
  | cons x t ih =>
    have ht := ih (a := a + (itemBytes x).length) (fun y hy => hd y (by simp [hy])) (fun y hy => hn y (by simp [hy]))
    simp only [layout, List.map_cons, dupeCheck, at_]
    by_cases hb : x.1.btype = 0x6A
    · obtain ⟨name, hk⟩ := dataOk_stored (hd x (by simp)) hb
      obtain ⟨p, hp, hnp⟩ := hn x (by simp) name hb hk
      rw [if_pos hb, hk]
      simp [hp, hnp, ht]
    · rw [if_neg hb, ht]

theorem readSrr_layout {file : Bytes} {l : List Item} (ho : openReader file = .ok .srr)
    (h : readTrace file = .ok (layout 0 l)) : readSrr file = .ok ((layout 0 l).map (·.1)) := by
  simp [readSrr, ho, readAll, h]

/-- Should the item stay when the names are removed? -/
def keepItem (names : List Str) (x : Item) : Bool :=
  match x.1.kind with
  | .stored _ name => !(x.1.btype == 0x6A && names.contains name)
  | _ => true

theorem removeChunks_items {pre : Bytes} {l : List Item} {names : List Str}
    (hc : ∀ x ∈ l, Complete x.1 ∧ DataOk (toEntry x)) :
    chunksVal (removeChunks (pre ++ itemsBytes l) names ((layout pre.length l).map (·.1))) =
      .ok (itemsBytes (l.filter (keepItem names))) := by
  induction l generalizing pre with
  | nil => simp [layout, removeChunks, chunksVal]
  | cons x t ih =>
    have e1 : pre ++ itemsBytes (x :: t) = (pre ++ itemBytes x) ++ itemsBytes t := by simp
    have e2 : pre.length + (itemBytes x).length = (pre ++ itemBytes x).length := by simp
    obtain ⟨hx1, hx2⟩ := hc x (by simp)
    have h1 := copyChunks_item (pre := pre) (rest := itemsBytes t) hx1 hx2
    have h2 := ih (pre := pre ++ itemBytes x) (fun y hy => hc y (by simp [hy]))
    rw [← e1, ← e2] at h2
    simp only [layout, List.map_cons, removeChunks]
    have hkeep : (at_ x.1 pre.length).btype = x.1.btype := rfl
    have hkind : (at_ x.1 pre.length).kind = x.1.kind := rfl
    by_cases hb : x.1.btype = 0x6A
    · obtain ⟨name, hk⟩ := dataOk_stored hx2 hb
      rw [if_pos (by exact hb)]
      simp only [hkind, hk]
      by_cases hm : name ∈ names
      · have hkp : keepItem names x = false := by simp [keepItem, hk, hb, hm]
        rw [if_pos hm, List.filter_cons_of_neg (by simp [hkp])]
        exact h2
      · have hkp : keepItem names x = true := by simp [keepItem, hk, hm]
        rw [if_neg hm, List.filter_cons_of_pos hkp, itemsBytes_cons]
        refine chunksVal_append ?_ h2
        rw [copyChunks, if_pos (by exact hb)] at h1
        exact h1
    · have hkp : keepItem names x = true := by
        unfold keepItem; split <;> simp [hb]
      rw [if_neg (by exact hb), List.filter_cons_of_pos hkp, itemsBytes_cons]
      refine chunksVal_append ?_ h2
      rw [copyChunks, if_neg (by exact hb)] at h1
      exact h1

/-- Dropping items that do not mark a volume. -/
theorem readable_filter {p : Item → Bool} {l : List Item} {rr : Option Bool} (h : Readable rr l)
    (hp : ∀ x ∈ l, x.1.btype = 0x71 → p x = true) : Readable rr (l.filter p) := by
  induction l generalizing rr with
  | nil => exact h
  | cons x t ih =>
    obtain ⟨h1, h2, h3, h4⟩ := h
    have ht := ih h4 (fun y hy => hp y (by simp [hy]))
    by_cases hx : p x = true
    · rw [List.filter_cons_of_pos hx]
      exact ⟨h1, h2, h3, ht⟩
    · rw [List.filter_cons_of_neg hx]
      have : nextRR rr x.1 = rr := by
        unfold nextRR; rw [if_neg]; rintro ⟨_, hc⟩; exact hx (hp x (by simp) hc)
      rw [this] at ht
      exact ht

/-- Items that are readable at the beginning of an SRR are readable everywhere. -/
theorem readable_weaken {l : List Item} (h : Readable none l) (rr : Option Bool) : Readable rr l := by
  induction l with
  | nil => trivial
  | cons x t ih =>
    obtain ⟨h1, h2, h3, h4⟩ := h
    have hsk : skippedLen .srr none x.1 = skippedLen .srr rr x.1 := by
      unfold skippedLen
      by_cases h7 : x.1.hsize = 7
      · simp [h7]
      · by_cases hr : isRecovery x.1 = true
        · exact absurd rfl (h3 h7 hr)
        · simp [h7, hr]
    refine ⟨h1, by rw [← hsk]; exact h2, fun h7 hr => absurd rfl (h3 h7 hr), ?_⟩
    by_cases hc : x.1.hsize ≠ 7 ∧ x.1.btype = 0x71
    · have e : ∀ r, nextRR r x.1 = some (hasFlag x.1.flags 1) := by
        intro r; unfold nextRR; rw [if_pos hc]
      rw [e] at h4 ⊢
      exact h4
    · have e : ∀ r, nextRR r x.1 = r := by
        intro r; unfold nextRR; rw [if_neg hc]
      rw [e] at h4 ⊢
      exact ih h4

end Rescene
namespace Rescene
open Spec

theorem newItems_entries {news : List NewFile} {adds : List Entry} (h : newEntries news = .ok adds) :
    ∃ items, newItems news = .ok items ∧ items.map toEntry = adds := by
  induction news generalizing adds with
  | nil => simp [newEntries] at h; subst h; exact ⟨[], rfl, rfl⟩
  | cons f t ih =>
    obtain ⟨name, d⟩ := f
    simp only [newEntries, newEntry, bind_eq_ok] at h
    obtain ⟨e, ⟨d', hd, raw, hraw, he⟩, r, hr, h⟩ := h
    simp only [pure_eq_ok, Except.ok.injEq] at h he hd
    subst h; subst hd; subst he
    obtain ⟨items, i1, i2⟩ := ih hr
    refine ⟨(storedBlock raw name d'.length, d') :: items, by simp [newItems, hraw, i1], ?_⟩
    simp [i2, toEntry, storedBlock]

theorem chunksVal_append_error {s t : List (Res Bytes)} {a : Bytes} {e : Err} (hs : chunksVal s = .ok a)
    (ht : chunksVal t = .error e) : chunksVal (s ++ t) = .error e := by
  induction s generalizing a with
  | nil => simpa using ht
  | cons x s ih =>
    cases x with
    | error e => simp [chunksVal] at hs
    | ok x =>
      simp only [chunksVal, bind_eq_ok] at hs
      obtain ⟨r, hr, hs⟩ := hs
      simp [chunksVal, ih hr]

theorem chunksVal_error_append {s t : List (Res Bytes)} {e : Err} (hs : chunksVal s = .error e) :
    chunksVal (s ++ t) = .error e := by
  induction s with
  | nil => simp [chunksVal] at hs
  | cons x s ih =>
    cases x with
    | error e' => simpa [chunksVal] using hs
    | ok x =>
      have hr : chunksVal s = .error e := by
        simp only [chunksVal] at hs
        cases hv : chunksVal s with
        | error e' => rw [hv] at hs; simpa using hs
        | ok v => rw [hv] at hs; simp at hs
      simp [chunksVal, ih hr]

theorem chunksVal_news_error {news : List NewFile} {e : Err} (h : newEntries news = .error e) :
    chunksVal (news.flatMap storeChunks) = .error e := by
  induction news with
  | nil => simp [newEntries] at h
  | cons f t ih =>
    obtain ⟨name, d⟩ := f
    rw [List.flatMap_cons]
    cases d with
    | error e' =>
      simp only [newEntries, newEntry, error_bind, Except.error.injEq] at h
      subst h
      simp [storeChunks, chunksVal]
    | ok d =>
      simp only [newEntries, newEntry, ok_bind] at h
      cases hm : mkStored name d.length with
      | error e' =>
        rw [hm] at h
        simp only [error_bind, Except.error.injEq] at h
        subst h
        simp [storeChunks, chunksVal, hm]
      | ok raw =>
        rw [hm] at h
        cases ht : newEntries t with
        | ok r => rw [ht] at h; simp at h
        | error e' =>
          rw [ht] at h
          simp at h; subst h
          refine chunksVal_append_error (a := raw ++ d) ?_ (ih ht)
          simp [storeChunks, chunksVal, hm]

theorem addChunks_error {pre : Bytes} {l : List Item} {news : List NewFile} {e : Err}
    (hc : ∀ x ∈ l, Complete x.1 ∧ DataOk (toEntry x)) (hn : newEntries news = .error e) :
    chunksVal (addChunks (pre ++ itemsBytes l) news false ((layout pre.length l).map (·.1))) = .error e := by
  induction l generalizing pre with
  | nil => simp [layout, addChunks, chunksVal_news_error hn]
  | cons x t ih =>
    have e1 : pre ++ itemsBytes (x :: t) = (pre ++ itemBytes x) ++ itemsBytes t := by simp
    have e2 : pre.length + (itemBytes x).length = (pre ++ itemBytes x).length := by simp
    have h1 := copyChunks_item (pre := pre) (rest := itemsBytes t) (hc x (by simp)).1 (hc x (by simp)).2
    simp only [layout, List.map_cons, addChunks, Bool.false_or, List.append_assoc]
    by_cases h71 : x.1.btype = 0x71
    · rw [if_pos ⟨h71, trivial⟩]
      exact chunksVal_error_append (chunksVal_news_error hn)
    · have h2 := ih (pre := pre ++ itemBytes x) (fun y hy => hc y (by simp [hy]))
      rw [← e1, ← e2] at h2
      have h3 := chunksVal_append_error h1 h2
      rw [if_neg (fun hcc => h71 hcc.1)]
      have hb : (x.1.btype == 0x71) = false := by simpa using h71
      simp only [copyChunks, at_, hb] at h3 ⊢
      simpa [h71] using h3

theorem dupeCheck_found {storeFiles : List Str} {l : List Item} {a : Nat}
    (hd : ∀ x ∈ l, DataOk (toEntry x))
    (hn : ∀ x ∈ l, ∀ name, x.1.btype = 0x6A → x.1.kind = .stored x.2.length name →
      ∃ p, osFileNameSrr name = .ok p)
    (hf : ∃ x ∈ l, ∃ name p, x.1.btype = 0x6A ∧ x.1.kind = .stored x.2.length name ∧
      osFileNameSrr name = .ok p ∧ p ∈ storeFiles) :
    dupeCheck storeFiles ((layout a l).map (·.1)) = .error .dupeName := by
  induction l generalizing a with
  | nil => obtain ⟨x, hx, _⟩ := hf; simp at hx
  | cons x t ih =>
    have hd' : ∀ y ∈ t, DataOk (toEntry y) := fun y hy => hd y (by simp [hy])
    have hn' : ∀ y ∈ t, ∀ name, y.1.btype = 0x6A → y.1.kind = .stored y.2.length name →
      ∃ p, osFileNameSrr name = .ok p := fun y hy => hn y (by simp [hy])
    simp only [layout, List.map_cons, dupeCheck, at_]
    obtain ⟨y, hy, name, p, f1, f2, f3, f4⟩ := hf
    by_cases hb : x.1.btype = 0x6A
    · obtain ⟨name', hk⟩ := dataOk_stored (hd x (by simp)) hb
      obtain ⟨p', hp'⟩ := hn x (by simp) name' hb hk
      rw [if_pos hb, hk]
      by_cases hm : p' ∈ storeFiles
      · simp [hp', hm]
      · rcases List.mem_cons.mp hy with rfl | hy
        · rw [hk] at f2
          simp only [Kind.stored.injEq, true_and] at f2
          subst f2
          rw [hp'] at f3
          simp only [Except.ok.injEq] at f3
          subst f3
          exact absurd f4 hm
        · simp [hp', ih hd' hn' ⟨y, hy, name, p, f1, f2, f3, f4⟩]
    · rw [if_neg hb]
      rcases List.mem_cons.mp hy with rfl | hy
      · exact absurd f1 hb
      · exact ih hd' hn' ⟨y, hy, name, p, f1, f2, f3, f4⟩

end Rescene
namespace Rescene
open Spec

theorem goodItems_complete {l : List Item} (h : GoodItems l) : ∀ x ∈ l, Complete x.1 ∧ DataOk (toEntry x) :=
  fun x hx => ⟨readable_mem h.readable x hx, h.data x hx⟩

/-- The insertion of stored files keeps the SRR well-formed. -/
theorem goodItems_insert {l1 l2 items : List Item} (h : GoodItems (l1 ++ l2))
    (hi : (∀ rr, Readable rr items) ∧ (∀ x ∈ items, DataOk (toEntry x) ∧ x.1.btype = 0x6A))
    (h1 : l1 ≠ []) : GoodItems (l1 ++ items ++ l2) := by
  have hr := h.readable
  rw [readable_append] at hr
  have hfold : ∀ (rr : Option Bool) (s : List Item), (∀ x ∈ s, x.1.btype = 0x6A) →
      s.foldl (fun r x => nextRR r x.1) rr = rr := by
    intro rr s
    induction s generalizing rr with
    | nil => simp
    | cons x s ih =>
      intro hs
      have : nextRR rr x.1 = rr := by
        unfold nextRR; rw [if_neg]; rintro ⟨_, hc⟩; have := hs x (by simp); omega
      simp only [List.foldl_cons, this]
      exact ih rr (fun y hy => hs y (by simp [hy]))
  refine ⟨?_, ?_, ?_, ?_⟩
  · rw [List.append_assoc, readable_append, readable_append]
    refine ⟨hr.1, hi.1 _, ?_⟩
    rw [hfold _ items (fun x hx => (hi.2 x hx).2)]
    exact hr.2
  · intro x hx
    simp only [List.mem_append] at hx
    rcases hx with (hx | hx) | hx
    · exact h.data x (by simp [hx])
    · exact (hi.2 x hx).1
    · exact h.data x (by simp [hx])
  · obtain ⟨x, t, hl, hx⟩ := h.head
    obtain ⟨y, l1', rfl⟩ := List.exists_cons_of_ne_nil h1
    rw [List.cons_append, List.cons.injEq] at hl
    exact ⟨y, l1' ++ items ++ l2, rfl, by rw [hl.1]; exact hx⟩
  · have := h.len
    simp only [itemsBytes_append, List.length_append] at this ⊢
    omega

theorem takeWhile_toEntry (l : List Item) :
    (l.takeWhile (fun x => x.1.btype ≠ 0x71)).map toEntry = beforeRar (l.map toEntry) := by
  unfold beforeRar
  rw [List.takeWhile_map]
  rfl

theorem dropWhile_toEntry (l : List Item) :
    (l.dropWhile (fun x => x.1.btype ≠ 0x71)).map toEntry = fromRar (l.map toEntry) := by
  unfold fromRar
  rw [List.dropWhile_map]
  rfl

end Rescene
