import Verif.Lemmas.Written
/-
C05: reading back a written SRR.
-/
namespace Rescene.Props
open Rescene Rescene.Spec

/-- One thing written to an SRR file: a stored file with its data, the block that marks
a RAR volume, an OSO hash, trailing bytes of a volume, or a header block that was read
from a RAR volume. -/
inductive Piece where
  | stored (name : Str) (data : Bytes)
  | rarFile (name : Str)
  | oso (size hash : Nat) (name : Str)
  | padding (p : Bytes)
  | rar (b : Block)

/-- `block_bytes()` of the block for a piece. -/
def Piece.raw : Piece → Res Bytes
  | .stored name data => mkStored name data.length
  | .rarFile name => mkRarFile name
  | .oso size hash name => mkOso size name hash
  | .padding p => mkPadding p
  | .rar b => .ok b.raw

/-- The data written after the block. -/
def Piece.data : Piece → Bytes
  | .stored _ data => data
  | _ => []

/-- What a reader should see. -/
def Piece.kind : Piece → Kind
  | .stored name data => .stored data.length name
  | .rarFile name => .rarFile name
  | .oso size hash name => .oso size hash name
  | .padding p => .padding p.length
  | .rar b => b.kind

/-- Write the pieces one after the other. -/
def writePieces : List Piece → Res Bytes
  | [] => .ok []
  | p :: t => do
    let raw ← p.raw
    let rest ← writePieces t
    return raw ++ (p.data ++ rest)

/-- Write an SRR: the header block, then the pieces. -/
def writeSrr (app : Str) (ps : List Piece) : Res Bytes := do
  let h ← mkSrrHeader app
  let rest ← writePieces ps
  return h ++ rest

/-- RAR header blocks: complete, of a RAR block type, and recovery records only
after a block that marks a volume. -/
def RarPiecesOk (ps : List Piece) : Prop :=
  ∀ l b r, ps = l ++ Piece.rar b :: r →
    Complete b ∧ (b.btype < 0x69 ∨ 0x71 < b.btype) ∧
      (isRecovery b = true → ∃ n, Piece.rarFile n ∈ l)

theorem rarPiecesOk_tail {p : Piece} {ps : List Piece} (h : RarPiecesOk (p :: ps))
    (hp : ∀ n, p ≠ .rarFile n) : RarPiecesOk ps := by
  intro l b r hps
  obtain ⟨h1, h2, h3⟩ := h (p :: l) b r (by rw [hps]; rfl)
  refine ⟨h1, h2, fun hr => ?_⟩
  obtain ⟨n, hn⟩ := h3 hr
  simp only [List.mem_cons] at hn
  rcases hn with hn | hn
  · exact absurd hn.symm (hp n)
  · exact ⟨n, hn⟩

/-- RAR header blocks after a volume was marked. -/
def RarPiecesIn (ps : List Piece) : Prop :=
  ∀ b, Piece.rar b ∈ ps → Complete b ∧ (b.btype < 0x69 ∨ 0x71 < b.btype)

theorem rarPiecesOk_in {ps : List Piece} (h : RarPiecesOk ps) : RarPiecesIn ps := by
  intro b hb
  obtain ⟨l, r, hlr⟩ := List.append_of_mem hb
  exact ⟨(h l b r hlr).1, (h l b r hlr).2.1⟩

/-- The items for a list of pieces. -/
theorem items_of_pieces (ps : List Piece) : ∀ (bytes : Bytes) (rr : Option Bool),
    writePieces ps = .ok bytes → (rr = some true ∧ RarPiecesIn ps ∨ rr = none ∧ RarPiecesOk ps) →
    ∃ items : List Item, Readable rr items ∧ itemsBytes items = bytes ∧
      items.map (fun x => (x.1.kind, x.2)) = ps.map (fun p => (p.kind, p.data)) ∧
      items.map (fun x => Except.ok x.1.raw) = ps.map Piece.raw ∧
      ∀ x ∈ items, x.1.btype = 0x6A → x.1.raw.length = x.1.hsize := by
  induction ps with
  | nil =>
    intro bytes rr h _
    simp [writePieces] at h
    exact ⟨[], trivial, h.symm, rfl, rfl, by simp⟩
  | cons p ps ih =>
    intro bytes rr h hrr
    simp only [writePieces, bind_eq_ok] at h
    obtain ⟨raw, hraw, rest, hrest, h⟩ := h
    simp only [pure_eq_ok, Except.ok.injEq] at h
    -- the item for `p`
    have key : ∃ b : Block, Complete b ∧ b.raw = raw ∧ b.kind = p.kind ∧
        p.data.length = skippedLen .srr rr b ∧ (b.hsize ≠ 7 → isRecovery b = true → rr ≠ none) ∧
        (nextRR rr b = some true ∧ RarPiecesIn ps ∨ nextRR rr b = none ∧ RarPiecesOk ps) ∧
        (b.btype = 0x6A → b.raw.length = b.hsize) := by
      have tl : ∀ b : Block, b.btype ≠ 0x71 → (∀ n, p ≠ .rarFile n) →
          (nextRR rr b = some true ∧ RarPiecesIn ps ∨ nextRR rr b = none ∧ RarPiecesOk ps) := by
        intro b hb hp
        have : nextRR rr b = rr := by unfold nextRR; rw [if_neg (fun hc => hb hc.2)]
        rw [this]
        rcases hrr with ⟨h1, h2⟩ | ⟨h1, h2⟩
        · exact Or.inl ⟨h1, fun b hb => h2 b (List.mem_cons_of_mem _ hb)⟩
        · exact Or.inr ⟨h1, rarPiecesOk_tail h2 hp⟩
      cases p with
      | stored name data =>
        obtain ⟨c, s⟩ := complete_stored hraw
        refine ⟨_, c, rfl, ?_, ?_, ?_, tl _ (by simp [storedBlock]) (by simp), fun _ => rfl⟩
        · simp [storedBlock, Piece.kind]
        · rw [s]; simp [Piece.data]
        · intro _ hr; rw [isRecovery_of_ne (by simp [storedBlock]) (by simp [storedBlock])] at hr; simp at hr
      | rarFile name =>
        obtain ⟨c, s⟩ := complete_rarFile hraw
        refine ⟨_, c, rfl, rfl, ?_, ?_, ?_, fun _ => rfl⟩
        · rw [s]; simp [Piece.data]
        · intro _ hr; rw [isRecovery_of_ne (by simp [rarFileBlock]) (by simp [rarFileBlock])] at hr; simp at hr
        · refine Or.inl ⟨?_, ?_⟩
          · have hne : raw.length ≠ 7 := by
              have := mkRarFile_ok_iff.mp hraw
              obtain ⟨n, _, _, _, hr⟩ := this
              rw [hr]; simp
            simp [nextRR, rarFileBlock, hne]
            decide
          · rcases hrr with ⟨h1, h2⟩ | ⟨h1, h2⟩
            · exact fun b hb => h2 b (List.mem_cons_of_mem _ hb)
            · exact fun b hb => rarPiecesOk_in h2 b (List.mem_cons_of_mem _ hb)
      | oso size hash name =>
        obtain ⟨c, s⟩ := complete_oso hraw
        refine ⟨_, c, rfl, rfl, ?_, ?_, tl _ (by simp [osoBlock]) (by simp), fun _ => rfl⟩
        · rw [s]; simp [Piece.data]
        · intro _ hr; rw [isRecovery_of_ne (by simp [osoBlock]) (by simp [osoBlock])] at hr; simp at hr
      | padding pd =>
        obtain ⟨c, s⟩ := complete_padding hraw
        refine ⟨_, c, rfl, rfl, ?_, ?_, tl _ (by simp [padBlock]) (by simp), fun hc => by simp [padBlock] at hc⟩
        · rw [s]; simp [Piece.data]
        · intro _ hr; rw [isRecovery_of_ne (by simp [padBlock]) (by simp [padBlock])] at hr; simp at hr
      | rar b =>
        simp only [Piece.raw, Except.ok.injEq] at hraw
        have hb : Complete b ∧ (b.btype < 0x69 ∨ 0x71 < b.btype) ∧ (isRecovery b = true → rr ≠ none) := by
          rcases hrr with ⟨h1, h2⟩ | ⟨h1, h2⟩
          · obtain ⟨g1, g2⟩ := h2 b (by simp)
            exact ⟨g1, g2, fun _ => by rw [h1]; simp⟩
          · obtain ⟨g1, g2, g3⟩ := h2 [] b ps rfl
            refine ⟨g1, g2, fun hc => ?_⟩
            obtain ⟨n, hn⟩ := g3 hc
            simp at hn
        refine ⟨b, hb.1, hraw, rfl, ?_, fun _ => hb.2.2, tl b (by have := hb.2.1; omega) (by simp), fun hc => ?_⟩
        · have hrrne : isRecovery b = true → rr ≠ some false := by
            intro _ hc
            rcases hrr with ⟨h1, _⟩ | ⟨h1, _⟩ <;> simp [h1] at hc
          simp only [Piece.data, List.length_nil]
          unfold skippedLen
          rw [if_neg (by have := hb.2.1; omega : ¬ b.btype = 0x6A)]
          by_cases hr : isRecovery b = true
          · simp [hrrne hr]
          · simp [hr]
        · have := hb.2.1; omega
    obtain ⟨b, hb1, hb2, hb3, hb4, hb5, hb6, hb7⟩ := key
    obtain ⟨items, i1, i2, i3, i4, i5⟩ := ih rest (nextRR rr b) hrest hb6
    refine ⟨(b, p.data) :: items, ⟨hb1, hb4, hb5, i1⟩, ?_, ?_, ?_, ?_⟩
    · simp [itemBytes, i2, hb2, ← h]
    · simp [i3, hb3]
    · simp [i4, hb2, hraw]
    · intro x hx
      simp only [List.mem_cons] at hx
      rcases hx with rfl | hx
      · exact hb7
      · exact i5 x hx

theorem layout_fst (a : Nat) (l : List Item) {β : Type} (f : Block → β) (hf : ∀ b p, f (at_ b p) = f b) :
    ((layout a l).map (·.1)).map f = l.map (fun x => f x.1) := by
  induction l generalizing a with
  | nil => rfl
  | cons x t ih => simp only [layout, List.map_cons, hf, ih]

/-- The data of every item is found behind its block. -/
theorem layout_data (pre : Bytes) (l : List Item) (i : Nat) (b : Block) (e : Nat) (x : Item)
    (hl : (layout pre.length l)[i]? = some (b, e)) (hx : l[i]? = some x) :
    readAt (pre ++ itemsBytes l) (b.pos + x.1.raw.length) x.2.length = x.2 := by
  induction l generalizing pre i with
  | nil => simp at hx
  | cons y t ih =>
    cases i with
    | zero =>
      simp only [layout, List.getElem?_cons_zero, Option.some.injEq, Prod.mk.injEq] at hl hx
      subst hx
      rw [← hl.1]
      simp only [at_, itemsBytes_cons, itemBytes]
      have e : pre ++ (y.1.raw ++ y.2 ++ itemsBytes t) = (pre ++ y.1.raw) ++ (y.2 ++ itemsBytes t) := by simp
      have e2 : pre.length + y.1.raw.length = (pre ++ y.1.raw).length := by simp
      rw [e, e2, readAt_append_drop, List.take_append_of_le_length (by omega), List.take_length]
    | succ i =>
      simp only [layout, List.getElem?_cons_succ] at hl hx
      have e : pre ++ itemsBytes (y :: t) = (pre ++ itemBytes y) ++ itemsBytes t := by simp
      have e2 : pre.length + (itemBytes y).length = (pre ++ itemBytes y).length := by simp
      rw [e2] at hl
      rw [e]
      exact ih _ _ hl hx

/-- C05: the reader returns exactly the sequence of blocks that was written, with
identical block bytes; and the data of every stored file is found at the position the
block reports (`srr_data()`: `block_position + header_size`). -/
theorem written_srr_reads_back {app : Str} {ps : List Piece} {bytes : Bytes}
    (hw : writeSrr app ps = .ok bytes) (hlen : 20 ≤ bytes.length) (hrar : RarPiecesOk ps) :
    ∃ blocks, readAll bytes = .ok blocks ∧
      blocks.map (fun b => b.kind) = .srrHeader app :: ps.map Piece.kind ∧
      blocks.map (fun b => Except.ok b.raw) = mkSrrHeader app :: ps.map Piece.raw ∧
      (blocks.map (fun b => b.pos)).Pairwise (· < ·) ∧
      ∀ i name data, ps[i]? = some (.stored name data) →
        ∃ b, blocks[i + 1]? = some b ∧ readAt bytes (b.pos + b.hsize) data.length = data := by
  simp only [writeSrr, bind_eq_ok] at hw
  obtain ⟨h, hh, rest, hrest, hw⟩ := hw
  simp only [pure_eq_ok, Except.ok.injEq] at hw
  obtain ⟨items, i1, i2, i3, i4, i5⟩ := items_of_pieces ps rest none hrest (Or.inr ⟨rfl, hrar⟩)
  obtain ⟨hc, hs⟩ := complete_header hh
  have hread : Readable none ((headerBlock h app, []) :: items) := by
    refine ⟨hc, by rw [hs]; rfl, ?_, ?_⟩
    · intro _ hr
      rw [isRecovery_of_ne (by simp [headerBlock]) (by simp [headerBlock])] at hr; simp at hr
    · have : nextRR none (headerBlock h app) = none := by simp [nextRR, headerBlock]
      rw [this]; exact i1
  have hbytes : itemsBytes ((headerBlock h app, []) :: items) = bytes := by
    simp [itemBytes, headerBlock, i2, hw]
  have htr := readTrace_items (by rfl) hread (by rw [hbytes]; exact hlen)
  rw [hbytes] at htr
  refine ⟨(layout 0 ((headerBlock h app, []) :: items)).map (·.1), by simp [readAll, htr], ?_, ?_, ?_, ?_⟩
  · rw [layout_fst 0 _ (fun b => b.kind) (fun _ _ => rfl)]
    have := congrArg (List.map (·.1)) i3
    simp only [List.map_map] at this
    simp only [List.map_cons]
    congr 1
  · rw [layout_fst 0 _ (fun b => (Except.ok b.raw : Res Bytes)) (fun _ _ => rfl)]
    simp only [List.map_cons, i4, hh]
    rfl
  · have hp : ∀ (l : List Item) (a : Nat) (rr : Option Bool), Readable rr l →
        (∀ b ∈ (layout a l).map (fun x => x.1.pos), a ≤ b) ∧
        ((layout a l).map (fun x => x.1.pos)).Pairwise (· < ·) := by
      intro l
      induction l with
      | nil => intro a rr _; simp [layout]
      | cons x t ih =>
        intro a rr hr
        obtain ⟨g1, g2⟩ := ih (a + (itemBytes x).length) _ hr.2.2.2
        have h7 := complete_len hr.1
        have hpos : 0 < (itemBytes x).length := by simp [itemBytes]; omega
        simp only [layout, List.map_cons, at_]
        refine ⟨?_, List.pairwise_cons.mpr ⟨?_, g2⟩⟩
        · intro b hb
          rcases List.mem_cons.mp hb with rfl | hb
          · exact Nat.le_refl _
          · have := g1 b hb; omega
        · intro b hb
          have := g1 b hb; omega
    have := (hp _ 0 none hread).2
    simpa [List.map_map, Function.comp_def] using this
  · intro i name data hi
    have hlt : (layout 0 ((headerBlock h app, []) :: items)).length = items.length + 1 := by
      have := congrArg List.length (layout_fst 0 ((headerBlock h app, []) :: items) (fun _ => ()) (fun _ _ => rfl))
      simpa using this
    have hil : items.length = ps.length := by
      have := congrArg List.length i3; simpa using this
    have hips : i < ps.length := by
      rw [List.getElem?_eq_some_iff] at hi; exact hi.1
    obtain ⟨b, e, hbe⟩ : ∃ b e, (layout 0 ((headerBlock h app, []) :: items))[i + 1]? = some (b, e) := by
      have : i + 1 < (layout 0 ((headerBlock h app, []) :: items)).length := by omega
      exact ⟨_, _, List.getElem?_eq_getElem this⟩
    obtain ⟨x, hx⟩ : ∃ x, items[i]? = some x := ⟨_, List.getElem?_eq_getElem (by omega)⟩
    have hxk : (x.1.kind, x.2) = (Kind.stored data.length name, data) := by
      have := congrArg (fun l => l[i]?) i3
      simp only [List.getElem?_map, hx, hi, Option.map_some, Option.some.injEq] at this
      exact this
    simp only [Prod.mk.injEq] at hxk
    have hd := layout_data [] _ (i + 1) b e x hbe (by simpa using hx)
    rw [List.nil_append, hbytes] at hd
    -- the block in the trace is the item moved to its place
    have hat : ∃ p, b = at_ x.1 p := by
      have aux : ∀ (l : List Item) (a i : Nat) (b : Block) (e : Nat) (x : Item),
          (layout a l)[i]? = some (b, e) → l[i]? = some x → ∃ p, b = at_ x.1 p := by
        intro l
        induction l with
        | nil => intro a i b e x _ h; simp at h
        | cons y t ih =>
          intro a i b e x h1 h2
          cases i with
          | zero => simp [layout] at h1 h2; subst h2; exact ⟨_, h1.1.symm⟩
          | succ i => simp only [layout, List.getElem?_cons_succ] at h1 h2; exact ih _ _ _ _ _ h1 h2
      exact aux _ _ _ _ _ _ hbe (by simpa using hx)
    obtain ⟨p, hp⟩ := hat
    refine ⟨b, by simp [hbe], ?_⟩
    have hbt : x.1.btype = 0x6A → b.hsize = x.1.raw.length := by
      intro hc
      rw [hp]; exact (i5 x (List.mem_of_getElem? hx) hc).symm
    have h6a : x.1.btype = 0x6A := by
      have hraws : (Except.ok x.1.raw : Res Bytes) = mkStored name data.length := by
        have := congrArg (fun l => l[i]?) i4
        simp only [List.getElem?_map, hx, hi, Option.map_some, Option.some.injEq] at this
        exact this
      have hcx : Complete x.1 := by
        have aux : ∀ (l : List Item) (rr : Option Bool), Readable rr l → ∀ x ∈ l, Complete x.1 := by
          intro l
          induction l with
          | nil => intro _ _ x hx; simp at hx
          | cons y t ih =>
            intro rr hr x hx
            rcases List.mem_cons.mp hx with rfl | hx
            · exact hr.1
            · exact ih _ hr.2.2.2 x hx
        exact aux _ _ i1 x (List.mem_of_getElem? hx)
      have h1 := (complete_fields hcx).1
      obtain ⟨c2, _⟩ := complete_stored hraws.symm
      have h2 := (complete_fields c2).1
      simp only [storedBlock] at h2
      rw [h1] at h2
      simpa using h2
    rw [hbt h6a, ← hxk.2]
    rw [hxk.2] at hd ⊢
    exact hd

set_option maxRecDepth 8000 in
/-- Two stored files, a volume with a RAR marker block and its archive end block,
an OSO hash and trailing bytes. -/
example : (writeSrr (str "pyReScene") [.stored (str "a.nfo") [1, 2, 3], .stored (str "b/c.sfv") [],
      .rarFile (str "x.rar"),
      .rar ⟨0, 0x6152, 0x72, 0x1A21, 7, 0, [0x52, 0x61, 0x72, 0x21, 0x1A, 7, 0], .plain⟩,
      .padding [9, 9], .oso 70000 5 (str "x.avi")]).map List.length = .ok 123 := by decide

example : RarPiecesOk [.stored (str "a.nfo") [1, 2, 3], .rarFile (str "x.rar"),
      .rar ⟨0, 0x6152, 0x72, 0x1A21, 7, 0, [0x52, 0x61, 0x72, 0x21, 0x1A, 7, 0], .plain⟩] := by
  have hc : Complete ⟨0, 0x6152, 0x72, 0x1A21, 7, 0, [0x52, 0x61, 0x72, 0x21, 0x1A, 7, 0], .plain⟩ :=
    ⟨by decide, by decide, by intro h; rcases h with h | h <;> revert h <;> decide, by decide⟩
  intro l b r h
  match l, h with
  | [], h => simp at h
  | [_], h => simp at h
  | [_, _], h =>
    simp at h
    obtain ⟨_, _, rfl, _⟩ := h
    exact ⟨hc, Or.inr (by decide), fun h => absurd h (by decide)⟩
  | _ :: _ :: _ :: l, h => simp at h

end Rescene.Props
