import Verif.Lemmas.Items
import Verif.Spec.Srr
namespace Rescene
open Spec

/-- The entry of an item. -/
def toEntry (x : Item) : Entry := ⟨x.1.btype, x.1.kind, x.1.raw, x.2⟩

/-- Data only after stored files. -/
def DataOk (e : Entry) : Prop :=
  if e.btype = 0x6A then ∃ name, e.kind = .stored e.data.length name else e.data = []

theorem entriesBytes_map (l : List Item) : entriesBytes (l.map toEntry) = itemsBytes l := by
  simp [entriesBytes, itemsBytes, toEntry, Function.comp_def]
  rfl

@[simp] theorem entriesBytes_append (s t : List Entry) :
    entriesBytes (s ++ t) = entriesBytes s ++ entriesBytes t := by simp [entriesBytes]

@[simp] theorem entriesBytes_cons (e : Entry) (t : List Entry) :
    entriesBytes (e :: t) = e.raw ++ (e.data ++ entriesBytes t) := by simp [entriesBytes]

@[simp] theorem entriesBytes_nil : entriesBytes [] = [] := rfl

theorem layout_entries (pre : Bytes) (l : List Item) :
    (layout pre.length l).map (entryOf (pre ++ itemsBytes l)) = l.map toEntry := by
  induction l generalizing pre with
  | nil => rfl
  | cons x t ih =>
    simp only [layout, List.map_cons]
    have e1 : pre ++ itemsBytes (x :: t) = (pre ++ itemBytes x) ++ itemsBytes t := by simp
    have e2 : pre.length + (itemBytes x).length = (pre ++ itemBytes x).length := by simp
    congr 1
    · unfold entryOf toEntry at_
      simp only
      congr 1
      have e : pre ++ itemsBytes (x :: t) = (pre ++ x.1.raw) ++ (x.2 ++ itemsBytes t) := by simp [itemBytes]
      have e3 : pre.length + x.1.raw.length = (pre ++ x.1.raw).length := by simp
      have e4 : pre.length + (itemBytes x).length - (pre.length + x.1.raw.length) = x.2.length := by
        simp [itemBytes]; omega
      rw [e4, e, e3, readAt_append_drop, List.take_append_of_le_length (by omega), List.take_length]
    · rw [e1, e2]; exact ih _

theorem entryOf_items (file : Bytes) (tr : List (Block × Nat)) :
    tr.map (entryOf file) = (itemsOf file tr).map toEntry := by
  simp [itemsOf, toEntry, entryOf, Function.comp_def]

theorem layout_mem_fst {a : Nat} {l : List Item} {y : Block × Nat} (h : y ∈ layout a l) :
    ∃ x ∈ l, ∃ p, y.1 = at_ x.1 p := by
  induction l generalizing a with
  | nil => simp [layout] at h
  | cons x t ih =>
    simp only [layout, List.mem_cons] at h
    rcases h with rfl | h
    · exact ⟨x, by simp, _, rfl⟩
    · obtain ⟨z, hz, p, hp⟩ := ih h
      exact ⟨z, by simp [hz], p, hp⟩

/-- Items of a well-formed SRR. -/
structure GoodItems (l : List Item) : Prop where
  readable : Readable none l
  data : ∀ x ∈ l, DataOk (toEntry x)
  head : ∃ x t, l = x :: t ∧ x.1.btype = 0x69
  len : 20 ≤ (itemsBytes l).length

theorem contents_of_items {l : List Item} (h : GoodItems l) : Contents (itemsBytes l) (l.map toEntry) := by
  obtain ⟨x, t, rfl, hx⟩ := h.head
  have htr := readTrace_items hx h.readable h.len
  have hc := h.readable.1
  have h7 := complete_len hc
  have ho : openReader (itemsBytes (x :: t)) = .ok .srr := by
    apply openReader_srr h.len
    rw [itemsBytes_cons, itemBytes, List.append_assoc, unpackAt_left (by omega), (complete_fields hc).1, hx]
  refine ⟨ho, _, htr, (layout_entries [] (x :: t)).symm, ?_, ?_⟩
  · intro y hy
    obtain ⟨z, hz, p, hp⟩ := layout_mem_fst hy
    have := (readable_mem h.readable z hz).len
    rw [hp]
    exact this
  · intro e he
    rw [List.mem_map] at he
    obtain ⟨z, hz, rfl⟩ := he
    exact h.data z hz

theorem openReader_two {data : Bytes} (h : openReader data = .ok .srr) :
    20 ≤ data.length ∧ unpackAt 1 data 2 = .ok 0x69 := by
  unfold openReader at h
  split at h
  · simp at h
  · rename_i hl
    refine ⟨by omega, ?_⟩
    split at h
    · simp at h
    · split at h
      · simp at h
      · rename_i b hb
        split at h
        · simp at h
        · split at h
          · rename_i h69
            match data, hl, hb with
            | _ :: _ :: c :: t, hl, hb =>
              simp at hb
              rw [unpackAt_ok_iff]
              refine ⟨by simp, ?_⟩
              simp [slice, ofLe, hb, h69]
          · simp at h

theorem items_of_contents {file : Bytes} {c : List Entry} (h : Contents file c) :
    ∃ l, GoodItems l ∧ itemsBytes l = file ∧ l.map toEntry = c ∧ readTrace file = .ok (layout 0 l) := by
  obtain ⟨ho, tr, htr, hc, hw, hd⟩ := h
  obtain ⟨h1, h2, h3⟩ := readTrace_inv ho htr hw
  obtain ⟨hl, h69⟩ := openReader_two ho
  have hce : (itemsOf file tr).map toEntry = c := by rw [hc, entryOf_items]
  refine ⟨itemsOf file tr, ⟨h1, ?_, ?_, by rw [h2]; exact hl⟩, h2, hce, by rw [h3]; exact htr⟩
  · intro x hx
    exact hd _ (hce ▸ List.mem_map_of_mem hx)
  · match hi : itemsOf file tr with
    | [] => rw [hi] at h2; simp at h2; subst h2; simp at hl
    | x :: t =>
      refine ⟨x, t, rfl, ?_⟩
      rw [hi] at h1 h2
      have h7 := complete_len h1.1
      have := (complete_fields h1.1).1
      rw [← h2, itemsBytes_cons, itemBytes, List.append_assoc, unpackAt_left (by omega), this] at h69
      simpa using h69

theorem contents_bytes {file : Bytes} {c : List Entry} (h : Contents file c) : entriesBytes c = file := by
  obtain ⟨l, _, h2, h3, _⟩ := items_of_contents h
  rw [← h3, entriesBytes_map, h2]

/-- Every stored-file entry is a complete stored block. -/
theorem dataOk_stored {x : Item} (h : DataOk (toEntry x)) (hb : x.1.btype = 0x6A) :
    ∃ name, x.1.kind = .stored x.2.length name := by
  unfold DataOk at h
  rw [if_pos (by exact hb)] at h
  exact h

theorem dataOk_other {x : Item} (h : DataOk (toEntry x)) (hb : x.1.btype ≠ 0x6A) : x.2 = [] := by
  unfold DataOk at h
  rw [if_neg (by exact hb)] at h
  exact h

theorem complete_6a_len {b : Block} (h : Complete b) (hb : b.btype = 0x6A) : b.raw.length = b.hsize := by
  have := h.len
  unfold keptLen at this
  rw [if_pos (Or.inr (Or.inl hb))] at this
  exact this

end Rescene
