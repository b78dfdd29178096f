import Verif.Model.Riff
import Verif.Spec.Riff
import Verif.Lemmas.Blocks
import Verif.Lemmas.Crc
/-
Reading sequences of AVI parts.
-/
namespace Rescene
open Spec

/-- How a part is stored in a file of this kind: an SRS has no stream data. -/
def _root_.Rescene.Spec.AviPart.stored (mode : RiffMode) : AviPart → Bytes
  | .list riff size name => (AviPart.list riff size name).bytes
  | .chunk id data pad =>
    if mode = .srs ∧ (AviPart.chunk id data pad).track.isSome then id ++ (le 4 data.length ++ padding data pad)
    else (AviPart.chunk id data pad).bytes

def storedBytes (mode : RiffMode) (parts : List AviPart) : Bytes := parts.flatMap (AviPart.stored mode)

def kindOf (id : Bytes) : RiffKind :=
  if (id.take 2).all isDigitB then .movi else if id = cIdx1 then .index else .unknown

/-- What the reader makes of a part at `start`. -/
def _root_.Rescene.Spec.AviPart.item (mode : RiffMode) (start : Nat) : AviPart → RiffItem
  | .list riff size name =>
    ⟨⟨.list, name, if riff then cRIFF else cLIST, size, (if riff then riffId else listId) ++ (le 4 size ++ name), start⟩,
      [], none⟩
  | .chunk id data pad =>
    ⟨⟨kindOf id, id, [], data.length, id ++ le 4 data.length, start⟩,
      if mode = .srs ∧ (AviPart.chunk id data pad).track.isSome then [] else data,
      if data.length % 2 = 1 then some pad else none⟩

theorem isDigitB_iff (b : UInt8) : isDigitB b = true ↔ 0x30 ≤ b ∧ b ≤ 0x39 := by simp [isDigitB]

theorem isFourccB_iff (b : UInt8) : isFourccB b = true ↔ NameByte b := by
  simp [isFourccB, isDigitB, NameByte, or_assoc]

theorem kindOf_movi {id data : Bytes} {pad : UInt8} (h : id.length = 4) :
    kindOf id = .movi ↔ (AviPart.chunk id data pad).track.isSome = true := by
  match id, h with
  | [a, b, c, d], _ =>
    simp only [kindOf, AviPart.track, List.take_succ_cons, List.take_zero, List.all_cons, List.all_nil, Bool.and_true,
      Bool.and_eq_true, isDigitB_iff]
    by_cases hd : (0x30 ≤ a ∧ a ≤ 0x39) ∧ 0x30 ≤ b ∧ b ≤ 0x39
    · rw [if_pos hd, if_pos ⟨hd.1.1, hd.1.2, hd.2⟩]; simp
    · have hd' : ¬ (0x30 ≤ a ∧ a ≤ 0x39 ∧ 0x30 ≤ b ∧ b ≤ 0x39) := fun h => hd ⟨⟨h.1, h.2.1⟩, h.2.2⟩
      rw [if_neg hd, if_neg hd']
      split <;> simp

theorem kindOf_ne_list (id : Bytes) : kindOf id ≠ .list := by
  unfold kindOf
  split
  · simp
  · split <;> simp

theorem stream_of_track {id data : Bytes} {pad : UInt8} {n : Nat} {mode : RiffMode} {start : Nat}
    (h : (AviPart.chunk id data pad).track = some n) :
    ((AviPart.chunk id data pad).item mode start).chunk.stream = n := by
  simp only [AviPart.track] at h
  split at h
  · split at h
    · simp only [Option.some.injEq] at h
      subst h
      rfl
    · simp at h
  · simp at h

/-- Sample files: no list may be longer than the file. -/
def fitsAt (mode : RiffMode) (total start : Nat) : AviPart → Prop
  | .list false size _ => mode = .sample → start + 8 + size ≤ total
  | _ => True

theorem validFourcc_of {id : Bytes} (h4 : id.length = 4) (hb : ∀ b ∈ id, NameByte b) : validFourcc id = true := by
  simp only [validFourcc, Bool.and_eq_true, beq_iff_eq, List.all_eq_true]
  exact ⟨h4, fun b hb' => (isFourccB_iff b).2 (hb b hb')⟩

theorem stored_length_ge {mode : RiffMode} {p : AviPart} (h : p.Ok) : 8 ≤ (p.stored mode).length := by
  cases p with
  | list riff size name =>
    cases riff <;> simp [AviPart.stored, AviPart.bytes, riffId, listId] <;> omega
  | chunk id data pad =>
    obtain ⟨h4, _⟩ := h
    simp only [AviPart.stored]
    split <;> simp [AviPart.bytes] <;> omega

theorem riffRead_list {mode : RiffMode} {pre post : Bytes} {riff : Bool} {size : Nat} {name : Bytes}
    (hok : (AviPart.list riff size name).Ok)
    (hfit : fitsAt mode (pre ++ ((AviPart.list riff size name).bytes ++ post)).length pre.length (.list riff size name)) :
    riffRead mode (pre ++ ((AviPart.list riff size name).bytes ++ post)) pre.length =
      .ok (some (((AviPart.list riff size name).item mode pre.length).chunk, pre.length + 12)) := by
  obtain ⟨hs, h4⟩ := hok
  obtain ⟨mk, hmk⟩ : ∃ mk, mk = (if riff then riffId else listId) := ⟨_, rfl⟩
  have hml : mk.length = 4 := by subst hmk; cases riff <;> rfl
  have eb : (AviPart.list riff size name).bytes = mk ++ (le 4 size ++ name) := by
    simp only [AviPart.bytes, hmk]
  have hh : readAt (pre ++ ((AviPart.list riff size name).bytes ++ post)) pre.length 8 = mk ++ le 4 size := by
    rw [eb, show mk ++ (le 4 size ++ name) ++ post = (mk ++ le 4 size) ++ (name ++ post) by simp]
    exact readAt_append _ _ _ rfl (by simp [hml])
  have hm : readAt (pre ++ ((AviPart.list riff size name).bytes ++ post)) (pre.length + 8) 4 = name := by
    rw [eb, show pre ++ (mk ++ (le 4 size ++ name) ++ post) = (pre ++ (mk ++ le 4 size)) ++ (name ++ post) by simp]
    exact readAt_append _ _ _ (by simp [hml]) h4
  unfold riffRead
  rw [if_neg (by rw [eb]; simp [hml]; omega)]
  simp only [hh, hm]
  rw [show (mk ++ le 4 size).take 4 = mk by rw [List.take_append_of_le_length (by omega), List.take_of_length_le (by omega)]]
  rw [show mk ++ le 4 size = mk ++ (le 4 size ++ []) by simp, unpackAt_append mk [] hml (by simpa using hs), ok_bind]
  have hv : validFourcc mk = true := by subst hmk; cases riff <;> decide
  rw [if_neg (by simp [hv]), if_neg, if_pos]
  · simp only [AviPart.item, pure_eq_ok, List.append_nil, h4]
    subst hmk
    cases riff <;> simp [riffId, listId, cRIFF, cLIST]
  · subst hmk; cases riff
    · exact Or.inr rfl
    · exact Or.inl rfl
  · rintro ⟨h1, h2, h3⟩
    cases riff with
    | true => subst hmk; exact h2 rfl
    | false =>
      have := hfit h1
      omega

theorem riffRead_chunk {mode : RiffMode} {pre post : Bytes} {id data : Bytes} {pad : UInt8}
    (hok : (AviPart.chunk id data pad).Ok) (hm : mode ≠ .sample ∨ data.length ≤ post.length) :
    riffRead mode (pre ++ (id ++ (le 4 data.length ++ post))) pre.length =
      .ok (some (((AviPart.chunk id data pad).item mode pre.length).chunk, pre.length + 8)) := by
  obtain ⟨h4, hb, hr, hl, hs⟩ := hok
  have hh : readAt (pre ++ (id ++ (le 4 data.length ++ post))) pre.length 8 = id ++ le 4 data.length := by
    rw [show id ++ (le 4 data.length ++ post) = (id ++ le 4 data.length) ++ post by simp]
    exact readAt_append _ _ _ rfl (by simp [h4])
  unfold riffRead
  rw [if_neg (by simp [h4]; omega)]
  simp only [hh]
  rw [show (id ++ le 4 data.length).take 4 = id by
    rw [List.take_append_of_le_length (by omega), List.take_of_length_le (by omega)]]
  rw [show (id ++ le 4 data.length).take 2 = id.take 2 by rw [List.take_append_of_le_length (by omega)]]
  rw [show id ++ le 4 data.length = id ++ (le 4 data.length ++ []) by simp, unpackAt_append id [] h4 (by simpa using hs),
    ok_bind]
  rw [if_neg (by simp [validFourcc_of h4 hb]), if_neg, if_neg]
  · simp only [AviPart.item, pure_eq_ok, List.append_nil, kindOf]
  · rintro (h | h)
    · exact hr h
    · exact hl h
  · rintro ⟨h1, _, h3⟩
    rcases hm with hm | hm
    · exact hm h1
    · simp [h4] at h3; omega

theorem riffNext_part {mode : RiffMode} {enter : RiffChunk → Bool} {pre post : Bytes} {p : AviPart} (hok : p.Ok)
    (hent : (p.item mode pre.length).chunk.kind = .list → enter (p.item mode pre.length).chunk = true)
    (hfit : fitsAt mode (pre ++ (p.stored mode ++ post)).length pre.length p) :
    riffNext mode enter (pre ++ (p.stored mode ++ post)) pre.length =
      .ok (some (p.item mode pre.length, pre.length + (p.stored mode).length)) := by
  cases p with
  | list riff size name =>
    unfold riffNext
    rw [show (AviPart.list riff size name).stored mode = (AviPart.list riff size name).bytes from rfl] at hfit ⊢
    rw [riffRead_list hok hfit, ok_bind]
    dsimp only
    rw [if_pos ⟨rfl, hent rfl⟩]
    obtain ⟨_, h4⟩ := hok
    have : (AviPart.list riff size name).bytes.length = 12 := by cases riff <;> simp [AviPart.bytes, riffId, listId, h4]
    rw [this]
    rfl
  | chunk id data pad =>
    have hok' := hok
    have hk := kindOf_movi (data := data) (pad := pad) hok.1
    have hnl : ¬ (((AviPart.chunk id data pad).item mode pre.length).chunk.kind = .list ∧
        enter ((AviPart.chunk id data pad).item mode pre.length).chunk = true) := fun h => kindOf_ne_list id h.1
    obtain ⟨h4, hb, hr, hl, hs⟩ := hok'
    unfold riffNext
    have key : ∀ body : Bytes, (body = if mode = .srs ∧ (AviPart.chunk id data pad).track.isSome then [] else data) →
        (AviPart.chunk id data pad).stored mode = id ++ (le 4 data.length ++ (body ++ padding data pad)) := by
      intro body hbody
      subst hbody
      simp only [AviPart.stored, AviPart.bytes]
      split <;> simp
    obtain ⟨body, hbody⟩ : ∃ body, body = if mode = .srs ∧ (AviPart.chunk id data pad).track.isSome then [] else data :=
      ⟨_, rfl⟩
    rw [key body hbody]
    have hread := riffRead_chunk (mode := mode) (pre := pre) (post := body ++ padding data pad ++ post) hok
      (by
        by_cases hm : mode = .sample
        · right
          rw [hbody, if_neg (by simp [hm])]
          simp
        · exact Or.inl hm)
    rw [show id ++ (le 4 data.length ++ (body ++ padding data pad)) ++ post =
      id ++ (le 4 data.length ++ (body ++ padding data pad ++ post)) by simp]
    rw [hread, ok_bind]
    dsimp only
    rw [if_neg hnl]
    -- the contents
    have hn : (if mode = .srs ∧ ((AviPart.chunk id data pad).item mode pre.length).chunk.kind = .movi then (0 : Int)
        else ((AviPart.chunk id data pad).item mode pre.length).chunk.length) = (body.length : Int) := by
      have e1 : ((AviPart.chunk id data pad).item mode pre.length).chunk.kind = kindOf id := rfl
      have e2 : ((AviPart.chunk id data pad).item mode pre.length).chunk.length = (data.length : Int) := by
        unfold RiffChunk.length
        rw [e1, if_neg (kindOf_ne_list id)]
        rfl
      rw [e1, e2]
      by_cases hc : mode = .srs ∧ (AviPart.chunk id data pad).track.isSome = true
      · rw [if_pos ⟨hc.1, hk.2 hc.2⟩, hbody, if_pos hc]; rfl
      · rw [if_neg (fun h => hc ⟨h.1, hk.1 h.2⟩), hbody, if_neg hc]
    have hc : riffContents mode (pre ++ (id ++ (le 4 data.length ++ (body ++ padding data pad ++ post))))
        ((AviPart.chunk id data pad).item mode pre.length).chunk (pre.length + 8) =
        .ok (body, if data.length % 2 = 1 then some pad else none,
          pre.length + 8 + body.length + (padding data pad).length) := by
      unfold riffContents
      rw [hn]
      have e3 : readAt (pre ++ (id ++ (le 4 data.length ++ (body ++ padding data pad ++ post)))) (pre.length + 8)
          ((body.length : Int)).toNat = body := by
        rw [show pre ++ (id ++ (le 4 data.length ++ (body ++ padding data pad ++ post))) =
          (pre ++ (id ++ le 4 data.length)) ++ (body ++ (padding data pad ++ post)) by simp]
        exact readAt_append _ _ _ (by simp [h4]) (by simp)
      have e4 : ((pre.length + 8 : Nat) + (body.length : Int)).toNat = pre.length + 8 + body.length := by omega
      simp only [e3, e4]
      have e5 : ((AviPart.chunk id data pad).item mode pre.length).chunk.padded = decide (data.length % 2 = 1) := by
        rfl
      rw [e5]
      by_cases hodd : data.length % 2 = 1
      · rw [if_pos (by simpa using hodd), if_pos hodd]
        have e6 : readAt (pre ++ (id ++ (le 4 data.length ++ (body ++ padding data pad ++ post))))
            (pre.length + 8 + body.length) 1 = [pad] := by
          rw [show pre ++ (id ++ (le 4 data.length ++ (body ++ padding data pad ++ post))) =
            (pre ++ (id ++ (le 4 data.length ++ body))) ++ ([pad] ++ post) by simp [padding, hodd]]
          exact readAt_append _ _ _ (by simp [h4]; omega) (by simp)
        rw [e6]
        simp [padding, hodd]
      · rw [if_neg (by simpa using hodd), if_neg hodd]
        simp [padding, hodd]
    rw [hc, ok_bind]
    dsimp only
    simp only [pure_eq_ok, Except.ok.injEq, Option.some.injEq, Prod.mk.injEq]
    refine ⟨?_, by simp [h4]; omega⟩
    rw [hbody]
    rfl

/-- The items of a sequence of parts, the first one at `pos`. -/
def itemsAt (mode : RiffMode) : Nat → List AviPart → List RiffItem
  | _, [] => []
  | pos, p :: ps => p.item mode pos :: itemsAt mode (pos + (p.stored mode).length) ps

/-- The loop on the items. -/
def foldGo {σ : Type} (f : σ → RiffItem → Res (σ × Bool)) : σ → List RiffItem → Res σ
  | s, [] => .ok s
  | s, it :: l => do
    let (s, go) ← f s it
    if go then foldGo f s l else return s

theorem riffRead_end (mode : RiffMode) (file : Bytes) : riffRead mode file file.length = .ok none := by
  unfold riffRead
  rw [if_pos (by omega)]

/-- All lists are entered. -/
def Enters (mode : RiffMode) (enter : RiffChunk → Bool) (parts : List AviPart) : Prop :=
  ∀ p ∈ parts, ∀ pos, (p.item mode pos).chunk.kind = .list → enter (p.item mode pos).chunk = true

theorem storedBytes_cons (mode : RiffMode) (p : AviPart) (ps : List AviPart) :
    storedBytes mode (p :: ps) = p.stored mode ++ storedBytes mode ps := by simp [storedBytes]

theorem storedBytes_append (mode : RiffMode) (a b : List AviPart) :
    storedBytes mode (a ++ b) = storedBytes mode a ++ storedBytes mode b := by simp [storedBytes]

/-- A part cannot be refused when its lists fit. -/
def FitsFrom (mode : RiffMode) (total : Nat) : Nat → List AviPart → Prop
  | _, [] => True
  | pos, p :: ps => fitsAt mode total pos p ∧ FitsFrom mode total (pos + (p.stored mode).length) ps

theorem riffRead_part_ok {mode : RiffMode} {pre post : Bytes} {p : AviPart} (hok : p.Ok)
    (hfit : fitsAt mode (pre ++ (p.stored mode ++ post)).length pre.length p) :
    ∃ x, riffRead mode (pre ++ (p.stored mode ++ post)) pre.length = .ok x := by
  have h := riffNext_part (enter := fun _ => true) (pre := pre) (post := post) hok (fun _ => rfl) hfit
  unfold riffNext at h
  cases hr : riffRead mode (pre ++ (p.stored mode ++ post)) pre.length with
  | ok x => exact ⟨x, rfl⟩
  | error e => rw [hr] at h; simp at h

theorem riffLoop_parts {σ : Type} {mode : RiffMode} {enter : RiffChunk → Bool} {peek : Bool}
    {f : σ → RiffItem → Res (σ × Bool)} {parts : List AviPart} {pre : Bytes} {fuel : Nat} {s : σ}
    (hok : ∀ p ∈ parts, p.Ok) (hent : Enters mode enter parts)
    (hfit : FitsFrom mode (pre ++ storedBytes mode parts).length pre.length parts) (hfu : parts.length < fuel) :
    riffLoop mode enter peek (pre ++ storedBytes mode parts) f fuel pre.length s =
      foldGo f s (itemsAt mode pre.length parts) := by
  induction parts generalizing pre fuel s with
  | nil =>
    obtain ⟨k, rfl⟩ : ∃ k, fuel = k + 1 := ⟨fuel - 1, by simp at hfu; omega⟩
    simp only [riffLoop, itemsAt, foldGo]
    have : riffNext mode enter (pre ++ storedBytes mode []) pre.length = .ok none := by
      unfold riffNext
      rw [show pre ++ storedBytes mode [] = pre by simp [storedBytes], riffRead_end]
      rfl
    rw [this]
    rfl
  | cons p ps ih =>
    obtain ⟨k, rfl⟩ : ∃ k, fuel = k + 1 := ⟨fuel - 1, by simp at hfu; omega⟩
    rw [storedBytes_cons] at hfit ⊢
    have h1 := hok p (by simp)
    obtain ⟨hf1, hf2⟩ := hfit
    simp only [riffLoop, itemsAt, foldGo]
    rw [riffNext_part h1 (hent p (by simp) _) hf1, ok_bind]
    dsimp only
    cases hfs : f s (p.item mode pre.length) with
    | error e => rfl
    | ok r =>
      obtain ⟨s', go⟩ := r
      simp only [ok_bind]
      cases go with
      | true =>
        simp only [if_true]
        have e : pre ++ (p.stored mode ++ storedBytes mode ps) = (pre ++ p.stored mode) ++ storedBytes mode ps := by simp
        have e2 : pre.length + (p.stored mode).length = (pre ++ p.stored mode).length := by simp
        rw [e, e2]
        apply ih (fun q hq => hok q (by simp [hq])) (fun q hq => hent q (by simp [hq]))
        · rw [← e, ← e2]; exact hf2
        · simp at hfu; omega
      | false =>
        simp only [Bool.false_eq_true, if_false]
        split
        · cases ps with
          | nil =>
            rw [show pre.length + (p.stored mode).length = (pre ++ (p.stored mode ++ storedBytes mode [])).length by
              simp [storedBytes], riffRead_end]
            rfl
          | cons q qs =>
            rw [storedBytes_cons] at hf2 ⊢
            have e : pre ++ (p.stored mode ++ (q.stored mode ++ storedBytes mode qs)) =
              (pre ++ p.stored mode) ++ (q.stored mode ++ storedBytes mode qs) := by simp
            have e2 : pre.length + (p.stored mode).length = (pre ++ p.stored mode).length := by simp
            obtain ⟨x, hx⟩ := riffRead_part_ok (mode := mode) (pre := pre ++ p.stored mode) (post := storedBytes mode qs)
              (hok q (by simp)) (by rw [← e, ← e2]; exact hf2.1)
            rw [e, e2, hx]
            rfl
        · rfl

theorem stored_of_ne_srs {mode : RiffMode} (h : mode ≠ .srs) (p : AviPart) : p.stored mode = p.bytes := by
  cases p with
  | list => rfl
  | chunk id data pad => simp [AviPart.stored, h]

theorem storedBytes_of_ne_srs {mode : RiffMode} (h : mode ≠ .srs) (parts : List AviPart) :
    storedBytes mode parts = aviBytes parts := by
  simp only [storedBytes, aviBytes]
  congr 1
  funext p
  exact stored_of_ne_srs h p

theorem parts_length_le {mode : RiffMode} {parts : List AviPart} (hok : ∀ p ∈ parts, p.Ok) :
    parts.length ≤ (storedBytes mode parts).length := by
  induction parts with
  | nil => simp
  | cons p ps ih =>
    rw [storedBytes_cons]
    have := stored_length_ge (mode := mode) (hok p (by simp))
    have := ih fun q hq => hok q (by simp [hq])
    simp; omega

theorem fitsFrom_of_ne {mode : RiffMode} (h : mode ≠ .sample) (total pos : Nat) (parts : List AviPart) :
    FitsFrom mode total pos parts := by
  induction parts generalizing pos with
  | nil => trivial
  | cons p ps ih =>
    refine ⟨?_, ih _⟩
    cases p with
    | list riff size name => cases riff <;> simp [fitsAt, h]
    | chunk => trivial

theorem riffWalk_parts {σ : Type} {mode : RiffMode} {enter : RiffChunk → Bool} {peek : Bool}
    {f : σ → RiffItem → Res (σ × Bool)} {parts : List AviPart} {s : σ}
    (hok : ∀ p ∈ parts, p.Ok) (hent : Enters mode enter parts)
    (hfit : FitsFrom mode (storedBytes mode parts).length 0 parts) :
    riffWalk mode enter peek (storedBytes mode parts) f s = foldGo f s (itemsAt mode 0 parts) := by
  unfold riffWalk
  have := parts_length_le (mode := mode) hok
  exact riffLoop_parts (pre := []) hok hent hfit (by omega)

/-- A sample file is read like any other, or refused. -/
theorem sample_next_cases {enter : RiffChunk → Bool} {pre post : Bytes} {p : AviPart} (hok : p.Ok)
    {x : Option (RiffItem × Nat)} (h : riffNext .sample enter (pre ++ (p.bytes ++ post)) pre.length = .ok x) :
    fitsAt .sample (pre ++ (p.bytes ++ post)).length pre.length p := by
  cases p with
  | chunk => trivial
  | list riff size name =>
    cases riff with
    | true => trivial
    | false =>
      intro _
      obtain ⟨hs, h4⟩ := hok
      have eb : (AviPart.list false size name).bytes = listId ++ (le 4 size ++ name) := rfl
      have hh : readAt (pre ++ ((AviPart.list false size name).bytes ++ post)) pre.length 8 = listId ++ le 4 size := by
        rw [eb, show listId ++ (le 4 size ++ name) ++ post = (listId ++ le 4 size) ++ (name ++ post) by simp]
        exact readAt_append _ _ _ rfl (by simp [listId])
      unfold riffNext riffRead at h
      rw [if_neg (by rw [eb]; simp [listId])] at h
      simp only [hh] at h
      rw [show (listId ++ le 4 size).take 4 = listId by
        rw [List.take_append_of_le_length (by simp [listId]), List.take_of_length_le (by simp [listId])]] at h
      rw [show listId ++ le 4 size = listId ++ (le 4 size ++ []) by simp,
        unpackAt_append (k := 4) (n := size) (off := 4) listId [] rfl (by simpa using hs), ok_bind, if_neg (by decide)] at h
      apply Classical.byContradiction
      intro hn
      rw [if_pos ⟨trivial, by decide, by omega⟩] at h
      simp at h

theorem sample_loop_fits {σ : Type} {enter : RiffChunk → Bool} {f : σ → RiffItem → Res (σ × Bool)}
    (hgo : ∀ s it s' go, f s it = .ok (s', go) → go = true)
    {parts : List AviPart} {pre : Bytes} {fuel : Nat} {s s' : σ}
    (hok : ∀ p ∈ parts, p.Ok) (hent : Enters .sample enter parts)
    (h : riffLoop .sample enter false (pre ++ aviBytes parts) f fuel pre.length s = .ok s') :
    FitsFrom .sample (pre ++ aviBytes parts).length pre.length parts := by
  induction parts generalizing pre fuel s with
  | nil => trivial
  | cons p ps ih =>
    have eb : aviBytes (p :: ps) = p.bytes ++ aviBytes ps := by simp [aviBytes]
    rw [eb] at h ⊢
    cases fuel with
    | zero => simp [riffLoop] at h
    | succ k =>
      simp only [riffLoop] at h
      cases hx : riffNext .sample enter (pre ++ (p.bytes ++ aviBytes ps)) pre.length with
      | error e => rw [hx] at h; simp at h
      | ok x =>
        have h1 := hok p (by simp)
        have hf := sample_next_cases h1 hx
        have hst := stored_of_ne_srs (mode := .sample) (by decide) p
        have := riffNext_part (post := aviBytes ps) (pre := pre) (mode := .sample) h1 (hent p (by simp) _)
          (by rw [hst]; exact hf)
        rw [hst] at this
        rw [this, ok_bind] at h
        dsimp only at h
        cases hfs : f s (p.item .sample pre.length) with
        | error e => rw [hfs] at h; simp at h
        | ok r =>
          obtain ⟨s2, go⟩ := r
          have := hgo _ _ _ _ hfs
          subst this
          rw [hfs, ok_bind] at h
          simp only [if_true] at h
          have e : pre ++ (p.bytes ++ aviBytes ps) = (pre ++ p.bytes) ++ aviBytes ps := by simp
          have e2 : pre.length + p.bytes.length = (pre ++ p.bytes).length := by simp
          refine ⟨hf, ?_⟩
          rw [hst, e, e2]
          rw [e, e2] at h
          exact ih (fun q hq => hok q (by simp [hq])) (fun q hq => hent q (by simp [hq])) h

end Rescene
