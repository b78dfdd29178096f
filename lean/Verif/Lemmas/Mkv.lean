import Verif.Spec.Mkv
import Verif.Model.Mkv
import Verif.Props.Ebml
import Verif.Lemmas.AviSrs
/-
Reading the parts of a Matroska file.
-/
namespace Rescene
open Spec

theorem numberVal_of_vint {n v : Nat} {b : Bytes} (h : IsVint n v b) : numberVal b = v := by
  have hl := vint_length h
  obtain ⟨h1, h2, h3, rfl⟩ := h
  unfold numberVal
  rw [hl, ofBe_be_of_lt]
  · omega
  · have : (256 : Nat) ^ n = 2 ^ (7 * n) * 2 ^ n := by
      rw [show (256:Nat) = 2 ^ 8 from rfl, ← Nat.pow_mul, ← Nat.pow_add]; congr 1; omega
    have h2n : 2 ^ 1 ≤ 2 ^ n := Nat.pow_le_pow_right (by decide) h1
    rw [this]
    calc 2 ^ (7 * n) + v < 2 ^ (7 * n) + 2 ^ (7 * n) := by omega
      _ = 2 ^ (7 * n) * 2 := by omega
      _ ≤ 2 ^ (7 * n) * 2 ^ n := Nat.mul_le_mul_left _ (by omega)

theorem number_of_vint {v : Nat} {b : Bytes} (h : IsVint b.length v b) : IsNumber b := by
  unfold IsNumber
  rw [numberVal_of_vint h]
  exact h

theorem number_shape {b : Bytes} (h : IsNumber b) : ∃ x t, b = x :: t ∧ uintLength x.toNat = b.length ∧ 1 ≤ b.length := by
  obtain ⟨x, hx, h1, _⟩ := vint_shape h
  exact ⟨x, _, hx, h1, h.1⟩

theorem blockIds_eq : blockIds = [eBlock, eSimpleBlock] := rfl

theorem isBlockId_iff (id : Bytes) : isBlockId id = true ↔ id ∈ blockIds := by
  simp [isBlockId, blockIds_eq]

theorem isBlockId_false {id : Bytes} (h : id ∉ blockIds) : isBlockId id = false := by
  rw [← isBlockId_iff] at h
  simpa using h

/-- The part of `read` after the header. -/
theorem ebmlRead_header {mode : EbmlMode} {id size pre post : Bytes} {v : Nat} (hid : IsNumber id)
    (hs : IsVint size.length v size) :
    ebmlRead mode (pre ++ (id ++ (size ++ post))) pre.length =
      if mode = .sample ∧ id ≠ eSegment ∧ pre.length + id.length + size.length + v > (pre ++ (id ++ (size ++ post))).length then .error .invalidData
      else if isBlockId id then (do
        let (bl, q) ← blockRead (pre ++ (id ++ (size ++ post))) (pre.length + id.length + size.length) v
        return some ⟨id, id ++ size, pre.length, (v : Int) - bl.head.length, some bl, q⟩)
      else .ok (some ⟨id, id ++ size, pre.length, v, none, pre.length + id.length + size.length⟩) := by
  obtain ⟨x, t, hx, hxl, hx1⟩ := number_shape hid
  obtain ⟨y, u, hy, hyl, hy1⟩ := number_shape (number_of_vint hs)
  have hnot : ¬ pre.length + 2 > (pre ++ (id ++ (size ++ post))).length := by simp; omega
  have hd1 : (pre ++ (id ++ (size ++ post))).drop pre.length = x :: (t ++ (size ++ post)) := by
    rw [List.drop_left, hx]; rfl
  have hd2 : (pre ++ (id ++ (size ++ post))).drop (pre.length + id.length) = y :: (u ++ post) := by
    rw [← List.drop_drop, List.drop_left, List.drop_left, hy]; rfl
  have hh : readAt (pre ++ (id ++ (size ++ post))) pre.length (id.length + size.length) = id ++ size := by
    rw [show pre ++ (id ++ (size ++ post)) = pre ++ ((id ++ size) ++ post) by simp]
    exact readAt_append _ _ _ rfl (by simp)
  unfold ebmlRead
  rw [if_neg hnot, hd1]
  dsimp only
  rw [hxl, if_neg (by omega), hd2]
  dsimp only
  rw [hyl, hh, if_neg (fun h => by rw [List.length_append] at h; omega)]
  have hu : getEbmlUInt (id ++ size) id.length size.length = .ok v := by
    have := getEbmlUInt_vint hs id []
    simpa using this
  rw [hu, ok_bind]
  simp only [List.take_left']
  rfl

theorem ebmlRead_plain {mode : EbmlMode} {id size pre post : Bytes} {v : Nat} (hid : IsNumber id) (hb : id ∉ blockIds)
    (hs : IsVint size.length v size)
    (hf : mode = .sample → id ≠ eSegment → v ≤ post.length) :
    ebmlRead mode (pre ++ (id ++ (size ++ post))) pre.length =
      .ok (some ⟨id, id ++ size, pre.length, v, none, pre.length + id.length + size.length⟩) := by
  rw [ebmlRead_header hid hs, if_neg, if_neg (by simp [isBlockId_false hb])]
  rintro ⟨h1, h2, h3⟩
  have := hf h1 h2
  simp at h3
  omega

theorem laceOf_isLace {flags : UInt8} {t : Lace} (h : IsLace flags t) : laceOf flags.toNat = t := by
  unfold IsLace at h
  rw [← Props.lacing_kind] at h
  cases t <;> cases h2 : laceOf flags.toNat <;> rw [h2] at h <;> simp_all [laceCode]

theorem lace_decoded {b : MkvBlock} (h : b.Ok) (post : Bytes) :
    blockFrameLengths (laceOf b.flags.toNat) ((b.lace.length + b.data.length : Nat) : Int) (b.lace ++ post) =
      .ok (b.frames.map fun f => (f.length : Int), b.lace.length, post) := by
  obtain ⟨t, h1, h2, h3⟩ := h.lace
  rw [laceOf_isLace h1]
  have hsum : b.data.length = (b.frames.map List.length).sum := by
    unfold MkvBlock.data
    rw [List.length_flatten]
  have hmap : (b.frames.map List.length).map Int.ofNat = b.frames.map fun f => (f.length : Int) := by
    rw [List.map_map]; rfl
  rw [hsum, ← hmap]
  cases t with
  | none => exact Props.lacing_none_xiph.1 _ _ post h2
  | xiph => exact Props.lacing_none_xiph.2 _ _ post h2
  | fixed => exact Props.lacing_fixed_ebml_partial _ (Or.inl rfl) _ _ post h2 (by simpa using h3 (Or.inl rfl))
  | ebml => exact Props.lacing_fixed_ebml_partial _ (Or.inr rfl) _ _ post h2 (by simpa using h3 (Or.inr rfl))

/-- The element of a block as it is read. -/
def Spec.MkvBlock.info (b : MkvBlock) : EbmlBlock := ⟨b.track, b.frames.map fun f => (f.length : Int), b.head⟩

theorem blockRead_ok {b : MkvBlock} (h : b.Ok) (pre post : Bytes) :
    blockRead (pre ++ (b.head ++ post)) pre.length (b.head.length + b.data.length) =
      .ok (b.info, pre.length + b.head.length) := by
  obtain ⟨x, t, hx, hxl, hx1⟩ := number_shape (number_of_vint h.track)
  have htime := h.time
  have hfile : pre ++ (b.head ++ post) = pre ++ (b.number ++ ((b.time ++ [b.flags]) ++ (b.lace ++ post))) := by
    simp [MkvBlock.head]
  have hd : (pre ++ (b.head ++ post)).drop pre.length = x :: (t ++ ((b.time ++ [b.flags]) ++ (b.lace ++ post))) := by
    rw [hfile, List.drop_left, hx]; rfl
  have hn : readAt (pre ++ (b.head ++ post)) pre.length (max b.number.length 1) = b.number := by
    rw [hfile]
    exact readAt_append _ _ _ rfl (by omega)
  have h3 : readAt (pre ++ (b.head ++ post)) (pre.length + b.number.length) 3 = b.time ++ [b.flags] := by
    rw [hfile, show pre ++ (b.number ++ ((b.time ++ [b.flags]) ++ (b.lace ++ post))) =
      (pre ++ b.number) ++ ((b.time ++ [b.flags]) ++ (b.lace ++ post)) by simp]
    exact readAt_append _ _ _ (by simp) (by simp [htime])
  have hnum : getEbmlUInt b.number 0 b.number.length = .ok b.track := by
    have := getEbmlUInt_vint h.track [] []
    simpa using this
  have hrest : (pre ++ (b.head ++ post)).drop (pre.length + (b.number ++ (b.time ++ [b.flags])).length) = b.lace ++ post := by
    rw [hfile, show pre ++ (b.number ++ ((b.time ++ [b.flags]) ++ (b.lace ++ post))) =
      (pre ++ (b.number ++ (b.time ++ [b.flags]))) ++ (b.lace ++ post) by simp]
    rw [List.drop_left' (by simp)]
  have hhead : b.head = (b.number ++ (b.time ++ [b.flags])) ++ b.lace := by simp [MkvBlock.head]
  unfold blockRead
  rw [hd]
  dsimp only
  rw [hxl, hn, hnum, ok_bind, h3, if_neg (by simp; omega)]
  have hlast : (b.number ++ (b.time ++ [b.flags])).getLast?.getD 0 = b.flags := by
    rw [show b.number ++ (b.time ++ [b.flags]) = (b.number ++ b.time) ++ [b.flags] by simp, List.getLast?_concat]; rfl
  rw [hlast, hrest]
  have hsz : ((b.head.length + b.data.length : Nat) : Int) - ((b.number ++ (b.time ++ [b.flags])).length : Nat) =
      ((b.lace.length + b.data.length : Nat) : Int) := by
    rw [hhead, List.length_append]; omega
  rw [hsz, lace_decoded h, ok_bind]
  dsimp only
  have hq : (pre ++ (b.head ++ post)).length - post.length = pre.length + b.head.length := by simp; omega
  rw [hq]
  have hl : readAt (pre ++ (b.head ++ post)) (pre.length + b.head.length - b.lace.length) b.lace.length = b.lace := by
    rw [show pre ++ (b.head ++ post) = (pre ++ (b.number ++ (b.time ++ [b.flags]))) ++ (b.lace ++ post) by rw [hhead]; simp]
    refine readAt_append _ _ _ ?_ rfl
    rw [hhead]; simp; omega
  rw [hl, ← hhead]
  rfl

theorem ebmlRead_block {mode : EbmlMode} {b : MkvBlock} (h : b.Ok) (pre post : Bytes)
    (hf : mode = .sample → b.data.length ≤ post.length) :
    ebmlRead mode (pre ++ (b.id ++ (b.size ++ (b.head ++ post)))) pre.length =
      .ok (some ⟨b.id, b.id ++ b.size, pre.length, b.data.length, some b.info, pre.length + b.id.length + b.size.length + b.head.length⟩) := by
  have hid : IsNumber b.id := by
    have := h.id
    simp only [blockIds, List.mem_cons, List.not_mem_nil, or_false] at this
    rcases this with e | e <;> rw [e] <;> unfold IsNumber IsVint <;> decide
  rw [ebmlRead_header hid h.size, if_neg, if_pos ((isBlockId_iff _).2 h.id)]
  · have := blockRead_ok h (pre ++ (b.id ++ b.size)) post
    rw [show pre ++ (b.id ++ (b.size ++ (b.head ++ post))) = pre ++ (b.id ++ b.size) ++ (b.head ++ post) by simp,
      show pre.length + b.id.length + b.size.length = (pre ++ (b.id ++ b.size)).length by simp; omega, this, ok_bind]
    simp only [MkvBlock.info, pure_eq_ok, Except.ok.injEq, Option.some.injEq, EbmlElem.mk.injEq, true_and, and_true]
    omega
  · rintro ⟨h1, -, h3⟩
    have := hf h1
    simp at h3
    omega

/-- The element of a part that starts at `pos`. -/
def Spec.MkvPart.elem (pos : Nat) : MkvPart → EbmlElem
  | .enter id size => ⟨id, id ++ size, pos, numberVal size, none, pos + (id ++ size).length⟩
  | .leaf id size data => ⟨id, id ++ size, pos, data.length, none, pos + (id ++ size).length⟩
  | .block b => ⟨b.id, b.id ++ b.size, pos, b.data.length, some b.info, pos + (b.id ++ b.size ++ b.head).length⟩

/-- A part, and if its contents are in the file. -/
abbrev MkvItem := MkvPart × Bool

def MkvItem.bytes (x : MkvItem) : Bytes := x.1.head ++ if x.2 then x.1.data else []

def mkvItemsBytes (l : List MkvItem) : Bytes := l.flatMap MkvItem.bytes

/-- There is room for what is read in mode `sample`. -/
def MkvItem.Room (x : MkvItem) (post : Bytes) : Prop :=
  match x.1 with
  | .enter id size => id ≠ segmentId → numberVal size ≤ post.length
  | .leaf .. => x.2 = true
  | .block _ => x.2 = true

theorem ebmlRead_item {mode : EbmlMode} {x : MkvItem} (h : x.1.Ok) (pre post : Bytes)
    (hr : mode = .sample → x.Room post) :
    ebmlRead mode (pre ++ (x.bytes ++ post)) pre.length = .ok (some (x.1.elem pre.length)) := by
  obtain ⟨p, pres⟩ := x
  cases p with
  | enter id size =>
    have := ebmlRead_plain (mode := mode) (pre := pre) (post := post) h.1 h.2.1 h.2.2 (fun hm hi => hr hm hi)
    simp only [MkvItem.bytes, MkvPart.head, MkvPart.data, ite_self, List.append_nil, List.append_assoc, MkvPart.elem,
      List.length_append]
    rw [this]
    simp [Nat.add_assoc]
  | leaf id size data =>
    have := ebmlRead_plain (mode := mode) (pre := pre) (post := (if pres then data else []) ++ post) h.1 h.2.1 h.2.2 (by
      intro hm _
      have : pres = true := hr hm
      simp [this])
    simp only [MkvItem.bytes, MkvPart.head, MkvPart.data, List.append_assoc, MkvPart.elem, List.length_append]
    rw [this]
    simp [Nat.add_assoc]
  | block b =>
    have := ebmlRead_block (mode := mode) (b := b) h pre ((if pres then b.data else []) ++ post) (by
      intro hm
      have : pres = true := hr hm
      simp [this])
    simp only [MkvItem.bytes, MkvPart.head, MkvPart.data, List.append_assoc, MkvPart.elem, List.length_append]
    rw [this]
    simp [Nat.add_assoc]

theorem item_read {mode : EbmlMode} {x : MkvItem} (h : x.1.Ok) : ∀ (pre post : Bytes), (mode = .sample → x.Room post) →
    ebmlRead mode (pre ++ (x.bytes ++ post)) pre.length = .ok (some (x.1.elem pre.length)) :=
  fun pre post hr => ebmlRead_item h pre post hr

/-- What is done with a part leads behind it. -/
def EbmlSuits (mode : EbmlMode) (how : EbmlHow) (x : MkvItem) : Prop :=
  match how with
  | .child => x.2 = false ∨ x.1.data = []
  | .read => x.2 = true ∧ (∀ id size, x.1 ≠ .enter id size) ∧ (mode = .srs → ∀ b, x.1 ≠ .block b)
  | .skip => (x.2 = true ∧ (∀ id size, x.1 ≠ .enter id size) ∧ (mode = .srs → ∀ b, x.1 ≠ .block b)) ∨
      (mode = .srs ∧ x.2 = false ∧ ∃ b, x.1 = .block b)

/-- What the program gets to see. -/
def ebmlSeen (how : EbmlHow) (p : MkvPart) : Bytes := if how = .read then p.data else []

theorem contents_item {mode : EbmlMode} {how : EbmlHow} {x : MkvItem} (hs : EbmlSuits mode how x) (pre post : Bytes) :
    ebmlContents mode how (pre ++ (x.bytes ++ post)) (x.1.elem pre.length) =
      .ok (ebmlSeen how x.1, pre.length + x.bytes.length) := by
  obtain ⟨p, pres⟩ := x
  have hpos : (p.elem pre.length).pos = pre.length + p.head.length := by
    cases p <;> rfl
  cases how with
  | child =>
    have : MkvItem.bytes (p, pres) = p.head := by
      unfold MkvItem.bytes
      rcases hs with h | h
      · have : pres = false := h
        simp [this]
      · have : p.data = [] := h
        simp [this]
    rw [this]
    simp [ebmlContents, ebmlSeen, hpos]
  | read =>
    obtain ⟨h1, h2, h3⟩ := hs
    dsimp only at h1 h2 h3
    subst h1
    have hlen : (p.elem pre.length).length = (p.data.length : Int) := by
      cases p with
      | enter id size => exact absurd rfl (h2 id size)
      | leaf => rfl
      | block => rfl
    have hsrs : ¬ (mode = .srs ∧ (p.elem pre.length).block.isSome = true) := by
      rintro ⟨hm, hb⟩
      cases p with
      | enter => simp [MkvPart.elem] at hb
      | leaf => simp [MkvPart.elem] at hb
      | block b => exact h3 hm b rfl
    unfold ebmlContents
    dsimp only
    rw [if_neg hsrs, if_pos (by omega), hpos, hlen]
    have : readAt (pre ++ (MkvItem.bytes (p, true) ++ post)) (pre.length + p.head.length) (p.data.length : Int).toNat = p.data := by
      rw [show pre ++ (MkvItem.bytes (p, true) ++ post) = (pre ++ p.head) ++ (p.data ++ post) by simp [MkvItem.bytes]]
      exact readAt_append _ _ _ (by simp) (by simp)
    rw [this]
    simp [ebmlSeen, MkvItem.bytes, Nat.add_assoc]
  | skip =>
    unfold ebmlContents
    dsimp only
    rcases hs with ⟨h1, h2, h3⟩ | ⟨h1, h2, b, h3⟩
    · dsimp only at h1 h2 h3
      subst h1
      have hlen : (p.elem pre.length).length = (p.data.length : Int) := by
        cases p with
        | enter id size => exact absurd rfl (h2 id size)
        | leaf => rfl
        | block => rfl
      have hsrs : ¬ (mode = .srs ∧ (p.elem pre.length).block.isSome = true) := by
        rintro ⟨hm, hb⟩
        cases p with
        | enter => simp [MkvPart.elem] at hb
        | leaf => simp [MkvPart.elem] at hb
        | block b => exact h3 hm b rfl
      rw [if_neg hsrs, hpos, hlen]
      simp only [ebmlSeen, MkvItem.bytes, if_true, List.length_append, reduceCtorEq, if_false]
      congr 2
      omega
    · dsimp only at h1 h2 h3
      subst h2 h3
      rw [if_pos ⟨h1, rfl⟩, hpos]
      simp [ebmlSeen, MkvItem.bytes]

/-- The loops, over the parts. -/
def mkvFold {σ : Type} (how : σ → EbmlElem → EbmlHow) (f : σ → EbmlElem → Bytes → Res (σ × Bool)) :
    List MkvItem → Nat → σ → Res σ
  | [], _, s => .ok s
  | x :: l, pos, s => do
    let (s, done) ← f s (x.1.elem pos) (ebmlSeen (how s (x.1.elem pos)) x.1)
    if done then return s
    else mkvFold how f l (pos + x.bytes.length) s

/-- There is room for all parts in mode `sample`. -/
def RoomAll : List MkvItem → Prop
  | [] => True
  | x :: l => x.Room (mkvItemsBytes l) ∧ RoomAll l

theorem mkvItemsBytes_cons (x : MkvItem) (l : List MkvItem) : mkvItemsBytes (x :: l) = x.bytes ++ mkvItemsBytes l := by
  simp [mkvItemsBytes]

theorem mkvHead_length {p : MkvPart} (h : p.Ok) : 2 ≤ p.head.length := by
  cases p with
  | enter id size =>
    have h1 := h.1.1
    have h2 := h.2.2.1
    simp [MkvPart.head]; omega
  | leaf id size data =>
    have h1 := h.1.1
    have h2 := h.2.2.1
    simp [MkvPart.head]; omega
  | block b =>
    have h2 := h.size.1
    have h1 : 1 ≤ b.id.length := by
      have := h.id
      simp only [blockIds, List.mem_cons, List.not_mem_nil, or_false] at this
      rcases this with e | e <;> rw [e] <;> decide
    simp [MkvPart.head]; omega

theorem mkvItem_length {x : MkvItem} (h : x.1.Ok) : 2 ≤ x.bytes.length := by
  have := mkvHead_length h
  simp [MkvItem.bytes]; omega

theorem mkvLoop_items {σ : Type} {mode : EbmlMode} {again : Bool} {how : σ → EbmlElem → EbmlHow}
    {f : σ → EbmlElem → Bytes → Res (σ × Bool)} {l : List MkvItem} :
    ∀ (pre : Bytes) (s : σ) (fuel : Nat), (∀ x ∈ l, x.1.Ok) →
      (∀ x ∈ l, ∀ s pos, EbmlSuits mode (how s (x.1.elem pos)) x) →
      (mode = .sample → RoomAll l) → l.length < fuel →
      mkvLoop mode again how (pre ++ mkvItemsBytes l) f fuel pre.length s false = mkvFold how f l pre.length s := by
  induction l with
  | nil =>
    intro pre s fuel _ _ _ hfu
    cases fuel with
    | zero => simp at hfu
    | succ fuel =>
      rw [mkvLoop, ebmlRead, if_pos (by simp [mkvItemsBytes]), ok_bind]
      rfl
  | cons x l ih =>
    intro pre s fuel hok hsu hr hfu
    cases fuel with
    | zero => simp at hfu
    | succ fuel =>
      have hx := hok x (by simp)
      rw [mkvLoop, mkvFold, mkvItemsBytes_cons, ebmlRead_item hx pre (mkvItemsBytes l) (fun hm => (hr hm).1), ok_bind]
      dsimp only
      rw [if_neg (by simp), contents_item (hsu x (by simp) s pre.length), ok_bind]
      dsimp only
      cases hf : f s (x.1.elem pre.length) (ebmlSeen (how s (x.1.elem pre.length)) x.1) with
      | error e => rfl
      | ok y =>
        obtain ⟨s', done⟩ := y
        rw [ok_bind, ok_bind]
        dsimp only
        cases done with
        | false =>
          rw [if_neg (by simp), if_neg (by simp)]
          have := ih (pre ++ x.bytes) s' fuel (fun q hq => hok q (by simp [hq])) (fun q hq => hsu q (by simp [hq]))
            (fun hm => (hr hm).2) (by simp at hfu; omega)
          rw [List.append_assoc, List.length_append] at this
          exact this
        | true =>
          rw [if_pos rfl]
          split
          · rfl
          · cases fuel with
            | zero => simp at hfu
            | succ fuel =>
              rw [mkvLoop]
              cases l with
              | nil =>
                rw [ebmlRead, if_pos (by simp [mkvItemsBytes]), ok_bind]
              | cons y l =>
                have h := ebmlRead_item (mode := mode) (x := y) (hok y (by simp)) (pre ++ x.bytes) (mkvItemsBytes l) (fun hm => (hr hm).2.1)
                rw [List.append_assoc, List.length_append, ← mkvItemsBytes_cons] at h
                rw [h, ok_bind]
                rfl

theorem mkvItems_count {l : List MkvItem} (h : ∀ x ∈ l, x.1.Ok) : 2 * l.length ≤ (mkvItemsBytes l).length := by
  induction l with
  | nil => simp
  | cons x l ih =>
    rw [mkvItemsBytes_cons, List.length_append, List.length_cons]
    have := mkvItem_length (h x (by simp))
    have := ih fun q hq => h q (by simp [hq])
    omega

/-- Going through a file is going through its parts. -/
theorem mkvWalk_items {σ : Type} {mode : EbmlMode} {again : Bool} {how : σ → EbmlElem → EbmlHow}
    {f : σ → EbmlElem → Bytes → Res (σ × Bool)} {l : List MkvItem} (s : σ) (hok : ∀ x ∈ l, x.1.Ok)
    (hsu : ∀ x ∈ l, ∀ s pos, EbmlSuits mode (how s (x.1.elem pos)) x) (hr : mode = .sample → RoomAll l) :
    mkvWalk mode again how (mkvItemsBytes l) f s = mkvFold how f l 0 s := by
  unfold mkvWalk
  have := mkvItems_count hok
  exact mkvLoop_items [] s _ hok hsu hr (by omega)

end Rescene
