import Verif.Props.Written
import Verif.Model.Edit
/-
The blocks the reader returns for a written SRR, one by one.
-/
namespace Rescene.Props
open Rescene Rescene.Spec

/-- The block the reader returns for a piece of the SRR `srr`. -/
def PieceIs (srr : Bytes) : Piece → Block → Prop
  | .stored name data, b => b.btype = 0x6A ∧ b.kind = .stored data.length name ∧ srrData srr b = .ok data
  | .rarFile name, b => b.btype = 0x71 ∧ b.flags = 1 ∧ b.kind = .rarFile name
  | .oso size hash name, b => b.btype = 0x6B ∧ b.kind = .oso size hash name
  | .padding p, b => b.btype = 0x6C ∧ b.raw.drop b.hsize = p ∧ b.addSize = p.length
  | .rar c, b => ∃ pos, b = at_ c pos

/-- The blocks for a list of pieces. -/
def PiecesAre (srr : Bytes) : List Piece → List Block → Prop
  | [], [] => True
  | p :: ps, b :: bs => PieceIs srr p b ∧ PiecesAre srr ps bs
  | _, _ => False

/-- The bytes of a complete block determine it. -/
theorem complete_unique {b c : Block} (hb : Complete b) (hc : Complete c) (h : b.raw = c.raw) :
    b = at_ c b.pos := by
  obtain ⟨b1, b2, b3⟩ := complete_fields hb
  obtain ⟨c1, c2, c3⟩ := complete_fields hc
  rw [h] at b1 b2 b3
  have e1 : b.btype = c.btype := by rw [b1] at c1; exact Except.ok.inj c1
  have e3 : b.hsize = c.hsize := by rw [b3] at c3; exact Except.ok.inj c3
  have pb := hb.parsed
  have pc := hc.parsed
  rw [e1, e3] at pb
  split at pb
  · rename_i hcond
    rw [if_pos hcond] at pc
    rw [pb]
    have : c = plainBlock c.raw c.pos := pc
    rw [this]
    simp only [at_, plainBlock, h]
  · rename_i hcond
    rw [if_neg hcond] at pc
    rw [h, mkBlock_ok_iff] at pb
    rw [mkBlock_ok_iff] at pc
    obtain ⟨p1, p2, p3, p4, _, p6, p7, add, p8, p9⟩ := pb
    obtain ⟨q1, q2, q3, q4, _, q6, q7, add', q8, q9⟩ := pc
    have f1 : b.crc = c.crc := by rw [p1] at q1; exact Except.ok.inj q1
    have f2 : b.flags = c.flags := by rw [p3] at q3; exact Except.ok.inj q3
    rw [f2, q8] at p8
    have f3 : add' = add := Except.ok.inj p8
    subst f3
    rw [e1, f2, q9] at p9
    have f4 := Except.ok.inj p9
    simp only [Prod.mk.injEq] at f4
    cases b; cases c
    simp only [at_] at *
    simp_all

theorem pieces_are (post : Bytes) (items : List Item) : ∀ (pre : Bytes) (ps : List Piece) (rr : Option Bool),
    Readable rr items →
    items.map (fun x => (x.1.kind, x.2)) = ps.map (fun p => (p.kind, p.data)) →
    items.map (fun x => Except.ok x.1.raw) = ps.map Piece.raw →
    (∀ b, Piece.rar b ∈ ps → Complete b) →
    PiecesAre (pre ++ (itemsBytes items ++ post)) ps ((layout pre.length items).map (·.1)) := by
  induction items with
  | nil =>
    intro pre ps rr _ h _ _
    cases ps with
    | nil => trivial
    | cons _ _ => simp at h
  | cons x t ih =>
    intro pre ps rr hr h1 h2 h3
    cases ps with
    | nil => simp at h1
    | cons p ps =>
      simp only [List.map_cons, List.cons.injEq, Prod.mk.injEq] at h1 h2
      obtain ⟨⟨hk, hd⟩, h1⟩ := h1
      obtain ⟨hraw, h2⟩ := h2
      obtain ⟨r1, r2, r3, r4⟩ := hr
      have hrest := ih (pre ++ itemBytes x) ps _ r4 h1 h2 (fun b hb => h3 b (List.mem_cons_of_mem _ hb))
      have e1 : pre ++ itemBytes x ++ (itemsBytes t ++ post) = pre ++ (itemsBytes (x :: t) ++ post) := by simp
      rw [e1, List.length_append] at hrest
      refine ⟨?_, hrest⟩
      cases p with
      | stored name data =>
        simp only [Piece.raw, Piece.kind, Piece.data] at hraw hk hd
        obtain ⟨c, _⟩ := complete_stored hraw.symm
        have hu := complete_unique r1 c rfl
        have hb : x.1.btype = 0x6A := by rw [hu]; rfl
        have hh : x.1.hsize = x.1.raw.length := by rw [hu]; rfl
        refine ⟨hb, hk, ?_⟩
        simp only [srrData, at_]
        rw [hk]
        dsimp only
        rw [hh, itemsBytes_cons, itemBytes, hd]
        have e : pre ++ (x.1.raw ++ data ++ itemsBytes t ++ post) = (pre ++ x.1.raw) ++ (data ++ (itemsBytes t ++ post)) := by simp
        have e2 : pre.length + x.1.raw.length = (pre ++ x.1.raw).length := by simp
        rw [e, e2, readAt_append_drop, List.take_append_of_le_length (by omega), List.take_length]
      | rarFile name =>
        simp only [Piece.raw, Piece.kind] at hraw hk
        obtain ⟨c, _⟩ := complete_rarFile hraw.symm
        have hu := complete_unique r1 c rfl
        exact ⟨by rw [hu]; rfl, by rw [hu]; rfl, hk⟩
      | oso size hash name =>
        simp only [Piece.raw, Piece.kind] at hraw hk
        obtain ⟨c, _⟩ := complete_oso hraw.symm
        have hu := complete_unique r1 c rfl
        exact ⟨by rw [hu]; rfl, hk⟩
      | padding pd =>
        simp only [Piece.raw] at hraw
        obtain ⟨c, _⟩ := complete_padding hraw.symm
        have hu := complete_unique r1 c rfl
        have hh : x.1.hsize = 11 := by rw [hu]; rfl
        refine ⟨by rw [hu]; rfl, ?_, by rw [hu]; rfl⟩
        show x.1.raw.drop x.1.hsize = pd
        have := (mkPadding_ok_iff.mp hraw.symm).2
        rw [hh, this, ← List.append_assoc, List.drop_left' (by simp [rawHdr])]
      | rar c =>
        simp only [Piece.raw, Except.ok.injEq] at hraw
        have hu := complete_unique r1 (h3 c (by simp)) hraw
        refine ⟨pre.length, ?_⟩
        show at_ x.1 pre.length = _
        rw [hu]; rfl

/-- C05: the blocks the reader returns for a written SRR. -/
theorem written_blocks {app : Str} {ps : List Piece} {bytes : Bytes}
    (hw : writeSrr app ps = .ok bytes) (hlen : 20 ≤ bytes.length) (hrar : RarPiecesOk ps) :
    ∃ hb blocks, readAll bytes = .ok (hb :: blocks) ∧ hb.btype = 0x69 ∧ hb.kind = .srrHeader app ∧
      PiecesAre bytes ps blocks := by
  simp only [writeSrr, bind_eq_ok] at hw
  obtain ⟨h, hh, rest, hrest, hw⟩ := hw
  simp only [pure_eq_ok, Except.ok.injEq] at hw
  obtain ⟨items, i1, i2, i3, i4, i5⟩ := items_of_pieces ps rest none hrest (Or.inr ⟨rfl, hrar⟩)
  obtain ⟨hc, hs⟩ := complete_header hh
  have hread : Readable none ((headerBlock h app, []) :: items) := by
    refine ⟨hc, by rw [hs]; rfl, ?_, ?_⟩
    · intro _ hr
      rw [isRecovery_of_ne (by simp [headerBlock]) (by simp [headerBlock])] at hr; simp at hr
    · have : nextRR none (headerBlock h app) = none := by simp [nextRR, headerBlock]
      rw [this]; exact i1
  have hbytes : itemsBytes ((headerBlock h app, []) :: items) = bytes := by
    simp [itemBytes, headerBlock, i2, hw]
  have htr := readTrace_items (by rfl) hread (by rw [hbytes]; exact hlen)
  rw [hbytes] at htr
  have hp := pieces_are [] items h ps none i1 i3 i4 (fun b hb => (rarPiecesOk_in hrar b hb).1)
  rw [List.append_nil, i2, hw] at hp
  refine ⟨at_ (headerBlock h app) 0, (layout h.length items).map (·.1), ?_, rfl, rfl, hp⟩
  simp [readAll, htr, layout, itemBytes, headerBlock]

end Rescene.Props
