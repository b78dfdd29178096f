import Verif.Lemmas.Reread
namespace Rescene
open Spec

/-- A block together with the data written after `block_bytes()`. -/
abbrev Item := Block × Bytes

def itemBytes (x : Item) : Bytes := x.1.raw ++ x.2

/-- The bytes of a sequence of items. -/
def itemsBytes (l : List Item) : Bytes := (l.map itemBytes).flatten

/-- The trace the reader returns for the items, from offset `a` on. -/
def layout : Nat → List Item → List (Block × Nat)
  | _, [] => []
  | a, x :: t => (at_ x.1 a, a + (itemBytes x).length) :: layout (a + (itemBytes x).length) t

/-- Items that can be read one after the other. -/
def Readable : Option Bool → List Item → Prop
  | _, [] => True
  | rr, x :: t =>
    Complete x.1 ∧ x.2.length = skippedLen .srr rr x.1 ∧
      (x.1.hsize ≠ 7 → isRecovery x.1 = true → rr ≠ none) ∧ Readable (nextRR rr x.1) t

@[simp] theorem itemsBytes_nil : itemsBytes [] = [] := rfl
@[simp] theorem itemsBytes_cons {x : Item} {t : List Item} : itemsBytes (x :: t) = itemBytes x ++ itemsBytes t := rfl
@[simp] theorem itemsBytes_append {s t : List Item} : itemsBytes (s ++ t) = itemsBytes s ++ itemsBytes t := by
  simp [itemsBytes]

theorem complete_len {b : Block} (h : Complete b) : 7 ≤ b.raw.length := by
  have := h.len; have := h.size; omega

theorem readLoop_items {l : List Item} {st : RState} {pre : Bytes} {fuel : Nat}
    (h : Readable st.recRemoved l) (hpos : st.pos = pre.length) (hf : l.length < fuel)
    (hpre : pre = [] → ∀ x ∈ l.head?, x.1.btype ≠ 0x6A) :
    readLoop .srr (pre ++ itemsBytes l) fuel st = .ok (layout pre.length l) := by
  induction l generalizing st pre fuel with
  | nil =>
    obtain ⟨f, rfl⟩ : ∃ f, fuel = f + 1 := ⟨fuel - 1, by simp at hf; omega⟩
    simp [readLoop, readBlock, layout, hpos]
  | cons x t ih =>
    obtain ⟨f, rfl⟩ : ∃ f, fuel = f + 1 := ⟨fuel - 1, by simp at hf; omega⟩
    obtain ⟨h1, h2, h3, h4⟩ := h
    have h7 := complete_len h1
    have hr := read_complete h1 pre (x.2 ++ itemsBytes t) st hpos
      (fun hc hp => hpre hp x (by simp) hc) h3
    have e1 : pre ++ itemsBytes (x :: t) = pre ++ (x.1.raw ++ (x.2 ++ itemsBytes t)) := by
      simp [itemBytes]
    have e2 : pre ++ (x.1.raw ++ (x.2 ++ itemsBytes t)) = (pre ++ itemBytes x) ++ itemsBytes t := by
      simp [itemBytes]
    have e3 : pre.length + x.1.raw.length + skippedLen .srr st.recRemoved x.1 = (pre ++ itemBytes x).length := by
      simp [itemBytes, h2]; omega
    rw [e1]
    unfold readLoop
    rw [hr]
    simp only [ok_bind]
    rw [e2, ih h4 e3 (by rw [List.length_cons] at hf; omega)
      (fun hc => by
        exfalso
        have : (pre ++ itemBytes x).length = 0 := by rw [hc]; rfl
        rw [← e3] at this; omega)]
    simp only [ok_bind, pure_eq_ok, layout, e3]
    simp [List.length_append]

theorem items_length_le {l : List Item} {rr : Option Bool} (h : Readable rr l) :
    7 * l.length ≤ (itemsBytes l).length := by
  induction l generalizing rr with
  | nil => simp
  | cons x t ih =>
    have := complete_len h.1
    have := ih h.2.2.2
    simp [itemBytes]; omega

theorem openReader_srr {data : Bytes} (hl : 20 ≤ data.length) (h : unpackAt 1 data 2 = .ok 0x69) :
    openReader data = .ok .srr := by
  have h2 : ∃ b, data[2]? = some b ∧ b.toNat = 0x69 := by
    rw [unpackAt_ok_iff] at h
    match data, hl, h with
    | a :: b :: c :: t, hl, h =>
      refine ⟨c, rfl, ?_⟩
      simpa [slice, ofLe] using h.2.symm
  obtain ⟨b, hb, hb2⟩ := h2
  unfold openReader
  rw [if_neg (by omega), if_neg ?_, hb]
  · simp [hb2]
  · intro hc
    have : (data.take 8)[2]? = data[2]? := by rw [List.getElem?_take]; simp
    rw [hc, hb] at this
    simp only [rar5Marker] at this
    simp at this
    rw [← this] at hb2
    simp at hb2

/-- Reading back a sequence of items that starts with the SRR header. -/
theorem readTrace_items {x : Item} {t : List Item} (hx : x.1.btype = 0x69)
    (h : Readable none (x :: t)) (hl : 20 ≤ (itemsBytes (x :: t)).length) :
    readTrace (itemsBytes (x :: t)) = .ok (layout 0 (x :: t)) := by
  have hc := h.1
  have h7 := complete_len hc
  have ho : openReader (itemsBytes (x :: t)) = .ok .srr := by
    apply openReader_srr hl
    rw [itemsBytes_cons, itemBytes, List.append_assoc, unpackAt_left (by omega), (complete_fields hc).1, hx]
  unfold readTrace
  rw [ho, ok_bind]
  have := items_length_le h
  exact readLoop_items (pre := []) (st := RState.init) h rfl (by omega)
    (fun _ y hy => by simp at hy; subst hy; omega)

/-! The blocks built by the writers are complete. -/

theorem isRecovery_of_ne {b : Block} (h1 : b.btype ≠ 0x78) (h2 : b.btype ≠ 0x7A) : isRecovery b = false := by
  simp [isRecovery, h1, h2]

/-- A block read in SRR mode from a complete buffer. -/
theorem complete_of_read {raw : Bytes} {b : Block} {st' : RState} {rr : Option Bool}
    (h : readBlock .srr ([0] ++ (raw ++ [])) ⟨1, false, rr⟩ = .ok (some (b, st')))
    (hl : b.raw.length = b.hsize + keptLen b) :
    Complete b ∧ st'.pos = 1 + b.raw.length + skippedLen .srr rr b := by
  refine ⟨(readBlock_complete h (by simp) hl).1, ?_⟩
  obtain ⟨_, _, _, _, h5⟩ := readBlock_some (by intro h; simp at h) h
  rcases h5 with h5 | h5
  · exact h5.2.1
  · exact absurd h5.1 (by simp)

def storedBlock (raw : Bytes) (name : Str) (size : Nat) : Block :=
  ⟨1, 0x6A6A, 0x6A, 0x8000, raw.length, size, raw, .stored size name⟩
def headerBlock (raw : Bytes) (app : Str) : Block :=
  ⟨1, 0x6969, 0x69, if app = [] then 0 else 1, raw.length, 0, raw, .srrHeader app⟩
def rarFileBlock (raw : Bytes) (name : Str) : Block :=
  ⟨1, 0x7171, 0x71, 1, raw.length, 0, raw, .rarFile name⟩
def osoBlock (raw : Bytes) (size hash : Nat) (name : Str) : Block :=
  ⟨1, 0x6B6B, 0x6B, 0, raw.length, 0, raw, .oso size hash name⟩
def padBlock (raw : Bytes) (n : Nat) : Block :=
  ⟨1, 0x6C6C, 0x6C, 0x8000, 11, n, raw, .padding n⟩

theorem complete_stored {name : Str} {size : Int} {raw : Bytes} (hb : mkStored name size = .ok raw) :
    Complete (storedBlock raw name size.toNat) ∧
      ∀ rr, skippedLen .srr rr (storedBlock raw name size.toNat) = size.toNat := by
  have h := fun rr => complete_of_read (read_stored hb [0] [] ⟨1, false, rr⟩ (by simp) rfl) (by simp [keptLen])
  refine ⟨(h none).1, fun rr => ?_⟩
  have := (h rr).2
  simp only [List.length_cons, List.length_nil, Nat.zero_add] at this
  simp only [storedBlock]
  omega

theorem complete_header {app : Str} {raw : Bytes} (hb : mkSrrHeader app = .ok raw) :
    Complete (headerBlock raw app) ∧ ∀ rr, skippedLen .srr rr (headerBlock raw app) = 0 := by
  have hrec : ∀ p, isRecovery ⟨p, 0x6969, 0x69, if app = [] then 0 else 1, raw.length, 0, raw, .srrHeader app⟩ = false :=
    fun p => isRecovery_of_ne (by simp) (by simp)
  have hf : hasFlag (if app = [] then 0 else 1) 0x8000 = false := by split <;> decide
  have h := fun rr => complete_of_read (read_srrHeader hb [0] [] ⟨1, false, rr⟩ rfl)
    (by simp [keptLen, sizeField, hf])
  refine ⟨(h none).1, fun rr => ?_⟩
  have := (h rr).2
  simp only [List.length_cons, List.length_nil, Nat.zero_add] at this
  simp only [headerBlock]
  omega

theorem complete_rarFile {name : Str} {raw : Bytes} (hb : mkRarFile name = .ok raw) :
    Complete (rarFileBlock raw name) ∧ ∀ rr, skippedLen .srr rr (rarFileBlock raw name) = 0 := by
  have hf : hasFlag 1 0x8000 = false := by decide
  have h := fun rr => complete_of_read (read_rarFile hb [0] [] ⟨1, false, rr⟩ rfl)
    (by simp [keptLen, sizeField, hf])
  refine ⟨(h none).1, fun rr => ?_⟩
  have := (h rr).2
  simp only [List.length_cons, List.length_nil, Nat.zero_add] at this
  simp only [rarFileBlock]
  omega

theorem complete_oso {size hash : Nat} {name : Str} {raw : Bytes} (hb : mkOso size name hash = .ok raw) :
    Complete (osoBlock raw size hash name) ∧ ∀ rr, skippedLen .srr rr (osoBlock raw size hash name) = 0 := by
  have hf : hasFlag 0 0x8000 = false := by decide
  have h := fun rr => complete_of_read (read_oso hb [0] [] ⟨1, false, rr⟩ rfl)
    (by simp [keptLen, sizeField, hf])
  refine ⟨(h none).1, fun rr => ?_⟩
  have := (h rr).2
  simp only [List.length_cons, List.length_nil, Nat.zero_add] at this
  simp only [osoBlock]
  omega

theorem complete_padding {padding raw : Bytes} (hb : mkPadding padding = .ok raw) :
    Complete (padBlock raw padding.length) ∧ ∀ rr, skippedLen .srr rr (padBlock raw padding.length) = 0 := by
  have hraw := mkPadding_ok_iff.mp hb
  have hsz : ofLe (slice raw 7 11) = padding.length := by
    rw [hraw.2]
    have := rawHdr_skip (k := 4) (off := 7) (crc := 0x6C6C) (btype := 0x6C) (flags := 0x8000) (hsize := 11)
      (x := le 4 padding.length ++ padding) (by omega)
    rw [unpackAt_here hraw.1] at this
    exact unpackAt_ofLe this
  have hf : hasFlag 0x8000 0x8000 = true := by decide
  have hrl : raw.length = 11 + padding.length := by rw [hraw.2]; simp; omega
  have h := fun rr => complete_of_read (read_padding hb [0] [] ⟨1, false, rr⟩ rfl)
    (by simp [keptLen, sizeField, isRecovery, hsz, hf, hrl])
  refine ⟨(h none).1, fun rr => ?_⟩
  have := (h rr).2
  simp only [List.length_cons, List.length_nil, Nat.zero_add] at this
  simp only [padBlock]
  omega

end Rescene
