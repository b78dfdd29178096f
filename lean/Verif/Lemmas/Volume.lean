import Verif.Lemmas.Items
import Verif.Lemmas.NoFuel
/-
The blocks of a RAR volume.
-/
namespace Rescene
open Spec

/-- The blocks of a volume from offset `a` on. -/
def VolTiles (data : Bytes) : List (Block × Nat) → Nat → Prop
  | [], a => a = data.length
  | (b, e) :: t, a =>
    b.pos = a ∧ a < e ∧ e ≤ data.length ∧
    ((IsTail data b ∧ b.btype = 0x6C ∧ b.hsize = 11 ∧ mkPadding (data.drop a) = .ok b.raw ∧ e = data.length ∧ t = []) ∨
     (¬ IsTail data b ∧ b.raw = slice data a (a + b.raw.length) ∧ a + b.raw.length ≤ e ∧
        e = a + b.raw.length + skippedLen .rar none b ∧ (b.raw.length = b.hsize + keptLen b → Complete b))) ∧
    VolTiles data t e

theorem found_not_tail {data : Bytes} {b : Block} (h : FoundAt data b) : ¬ IsTail data b := by
  intro ht
  obtain ⟨_, _, h3, _⟩ := h
  obtain ⟨_, _, _, t4⟩ := ht
  omega

theorem skipped_rar (rr rr' : Option Bool) (b : Block) : skippedLen .rar rr b = skippedLen .rar rr' b := by
  unfold skippedLen; simp

theorem volTiles_of_loop {data : Bytes} {fuel : Nat} {st : RState} {tr : List (Block × Nat)}
    (hinv : EndOk .rar data st) (h : readLoop .rar data fuel st = .ok tr) :
    VolTiles data tr st.pos := by
  induction fuel generalizing st tr with
  | zero => simp [readLoop] at h
  | succ fuel ih =>
    have htl := readLoop_tiles hinv h
    unfold readLoop at h
    rw [bind_eq_ok] at h
    obtain ⟨o, ho, h⟩ := h
    cases o with
    | none =>
      simp only [pure_eq_ok, Except.ok.injEq] at h
      subst h
      exact readBlock_none ho
    | some x =>
      obtain ⟨b, st'⟩ := x
      simp only [bind_eq_ok, pure_eq_ok, Except.ok.injEq] at h
      obtain ⟨t, ht, h⟩ := h
      subst h
      obtain ⟨h1, h2, h3, h4, h5⟩ := readBlock_some hinv ho
      have hrest := ih h4 ht
      have hle := (readLoop_tiles h4 ht).2
      refine ⟨h1, h3, hle, ?_, hrest⟩
      rcases h5 with ⟨f1, f2, f3, f4, f5, f6⟩ | ⟨_, t1, t2, t3, t4, t5, t6, t7, t8, t9⟩
      · refine Or.inr ⟨found_not_tail f1, ?_, by omega, ?_, fun hw => (readBlock_complete ho f5 hw).1⟩
        · obtain ⟨_, _, _, g4⟩ := f1
          rw [h1] at g4
          rw [g4]
          simp only [slice, readAt, List.take_drop, List.length_take, List.length_drop]
          congr 2
          have : st.pos + b.raw.length ≤ data.length := by omega
          omega
        · rw [f2, skipped_rar st.recRemoved none]
      · refine Or.inl ⟨t1, t6, t7, by rw [← h1]; exact t9, t2, ?_⟩
        cases t with
        | nil => rfl
        | cons y t =>
          obtain ⟨y, e⟩ := y
          have := hrest.2.1
          have := hrest.2.2.1
          omega

theorem volTiles_of_read {data : Bytes} {tr : List (Block × Nat)} (hm : openReader data = .ok .rar)
    (h : readTrace data = .ok tr) : VolTiles data tr 0 := by
  unfold readTrace at h
  rw [hm, ok_bind] at h
  exact volTiles_of_loop endOk_init h

/-- The kind of a complete block. -/
theorem complete_kind {b : Block} (h : Complete b) (hc : ¬ (b.hsize = 7 ∧ b.btype ≠ 0x69)) :
    ∃ add, mkKind b.raw b.btype b.flags add = .ok (b.addSize, b.kind) := by
  have := h.parsed
  rw [if_neg hc, mkBlock_ok_iff] at this
  obtain ⟨_, _, _, _, _, _, _, add, _, p9⟩ := this
  exact ⟨add, p9⟩

theorem complete_packed {b : Block} (h : Complete b) (ht : b.btype = 0x74) (h7 : b.hsize ≠ 7) :
    ∃ f, b.kind = .packed f ∧ b.addSize = f.packedSize := by
  obtain ⟨add, hk⟩ := complete_kind h (fun hc => h7 hc.1)
  rw [ht] at hk
  unfold mkKind at hk
  simp only [show ¬ (0x74 = 0x69) by decide, show ¬ (0x74 = 0x6A) by decide, show ¬ (0x74 = 0x71) by decide,
    show ¬ (0x74 = 0x6B) by decide, show ¬ (0x74 = 0x6C) by decide, show ¬ (0x74 = 0x73) by decide, if_false, if_true,
    bind_eq_ok, pure_eq_ok, Except.ok.injEq, Prod.mk.injEq] at hk
  obtain ⟨x, _, hk⟩ := hk
  exact ⟨x.1, hk.2.symm, hk.1.symm⟩

theorem complete_newSub {b : Block} (h : Complete b) (ht : b.btype = 0x7A) (h7 : b.hsize ≠ 7) :
    ∃ f rr, b.kind = .newSub f rr := by
  obtain ⟨add, hk⟩ := complete_kind h (fun hc => h7 hc.1)
  rw [ht] at hk
  unfold mkKind at hk
  simp only [show ¬ (0x7A = 0x69) by decide, show ¬ (0x7A = 0x6A) by decide, show ¬ (0x7A = 0x71) by decide,
    show ¬ (0x7A = 0x6B) by decide, show ¬ (0x7A = 0x6C) by decide, show ¬ (0x7A = 0x73) by decide,
    show ¬ (0x7A = 0x74) by decide, if_false, if_true, bind_eq_ok] at hk
  obtain ⟨x, _, hk⟩ := hk
  split at hk
  · simp only [bind_eq_ok, pure_eq_ok, Except.ok.injEq, Prod.mk.injEq] at hk
    obtain ⟨rs, _, ds, _, _, hk⟩ := hk
    exact ⟨_, _, hk.symm⟩
  · simp only [pure_eq_ok, Except.ok.injEq, Prod.mk.injEq] at hk
    exact ⟨_, _, hk.2.symm⟩

theorem complete_oldRec {b : Block} (h : Complete b) (ht : b.btype = 0x78) (h7 : b.hsize ≠ 7) :
    ∃ ps v rs ds, b.kind = .oldRec ps v rs ds := by
  obtain ⟨add, hk⟩ := complete_kind h (fun hc => h7 hc.1)
  rw [ht] at hk
  unfold mkKind at hk
  simp only [show ¬ (0x78 = 0x69) by decide, show ¬ (0x78 = 0x6A) by decide, show ¬ (0x78 = 0x71) by decide,
    show ¬ (0x78 = 0x6B) by decide, show ¬ (0x78 = 0x6C) by decide, show ¬ (0x78 = 0x73) by decide,
    show ¬ (0x78 = 0x74) by decide, show ¬ (0x78 = 0x7A) by decide, if_false, if_true, bind_eq_ok, pure_eq_ok,
    Except.ok.injEq, Prod.mk.injEq] at hk
  obtain ⟨a, _, b', _, c, _, d, _, _, hk⟩ := hk
  exact ⟨_, _, _, _, hk.symm⟩

end Rescene
