import Verif.Lemmas.Written
namespace Rescene
open Spec

/-- No data of the block is missing (it could be cut off by the end of the file). -/
def Whole (b : Block) : Prop := b.raw.length = b.hsize + keptLen b

/-- The items of a file: every block with the data after it. -/
def itemsOf (data : Bytes) (tr : List (Block × Nat)) : List Item :=
  tr.map fun x => (x.1, readAt data (x.1.pos + x.1.raw.length) (x.2 - (x.1.pos + x.1.raw.length)))

theorem readLoop_inv {data : Bytes} {fuel : Nat} {st : RState} {tr : List (Block × Nat)}
    (h : readLoop .srr data fuel st = .ok tr) (hw : ∀ x ∈ tr, Whole x.1) :
    Readable st.recRemoved (itemsOf data tr) ∧ itemsBytes (itemsOf data tr) = data.drop st.pos ∧
      layout st.pos (itemsOf data tr) = tr := by
  induction fuel generalizing st tr with
  | zero => simp [readLoop] at h
  | succ fuel ih =>
    have hinv : ∀ s : RState, EndOk .srr data s := fun s _ hm => by simp at hm
    unfold readLoop at h
    rw [bind_eq_ok] at h
    obtain ⟨o, ho, h⟩ := h
    cases o with
    | none =>
      simp at h; subst h
      refine ⟨trivial, ?_, rfl⟩
      have := readBlock_none ho
      simp [itemsOf, this]
    | some p =>
      obtain ⟨b, st'⟩ := p
      simp only [bind_eq_ok] at h
      obtain ⟨t, ht, h⟩ := h
      simp at h; subst h
      obtain ⟨h1, h2, h3, h4, h5⟩ := readBlock_some (hinv st) ho
      replace h5 := h5.resolve_right (fun h => absurd h.1 (by simp))
      obtain ⟨f1, f2, f3, f4, f5, _⟩ := h5
      have hwb : Whole b := hw (b, st'.pos) (by simp)
      obtain ⟨c1, c2⟩ := readBlock_complete ho f5 hwb
      obtain ⟨i1, i2, i3⟩ := ih ht (fun x hx => hw x (by simp [hx]))
      have hle := (readLoop_tiles (hinv st') ht).2
      have hrr : st'.recRemoved = nextRR st.recRemoved b := by
        rw [f3]; unfold nextRR; simp
      rw [hrr] at i1
      have hsk : st'.pos - (b.pos + b.raw.length) = skippedLen .srr st.recRemoved b := by rw [f2, h1]; omega
      have hdl : (readAt data (b.pos + b.raw.length) (st'.pos - (b.pos + b.raw.length))).length =
          skippedLen .srr st.recRemoved b := by
        rw [hsk]; unfold readAt; rw [List.length_take, List.length_drop, h1]; omega
      have hraw : b.raw = (data.drop st.pos).take b.raw.length := by
        have := f1.2.2.2; rw [h1] at this; exact this
      refine ⟨⟨c1, hdl, fun h7 hr hn => ?_, i1⟩, ?_, ?_⟩
      · rw [c2 rfl hn h7] at hr; simp at hr
      · have i2' : itemsBytes (List.map (fun x : Block × Nat => ((x.1, readAt data (x.1.pos + x.1.raw.length)
            (x.2 - (x.1.pos + x.1.raw.length))) : Item)) t) = data.drop st'.pos := i2
        have hcat : ∀ (d r : Bytes) (n s : Nat), r = d.take n → r ++ (d.drop n).take s ++ d.drop (n + s) = d := by
          intro d r n s hr
          rw [hr, List.append_assoc, ← List.drop_drop, List.take_append_drop, List.take_append_drop]
        have := hcat (data.drop st.pos) b.raw b.raw.length (skippedLen .srr st.recRemoved b) hraw
        simp only [itemsOf, List.map_cons, itemsBytes_cons, itemBytes, i2', hsk]
        simp only [List.drop_drop] at this
        unfold readAt
        rw [h1, f2, Nat.add_assoc]
        exact this
      · simp only [itemsOf, List.map_cons, layout]
        have e1 : st.pos + (itemBytes (b, readAt data (b.pos + b.raw.length) (st'.pos - (b.pos + b.raw.length)))).length
            = st'.pos := by
          simp only [itemBytes, List.length_append, hdl]; omega
        rw [e1]
        have e2 : at_ b st.pos = b := by rw [← h1]; rfl
        rw [e2]
        congr 1

/-- A cleanly read SRR is the concatenation of its items. -/
theorem readTrace_inv {data : Bytes} {tr : List (Block × Nat)} (hm : openReader data = .ok .srr)
    (h : readTrace data = .ok tr) (hw : ∀ x ∈ tr, Whole x.1) :
    Readable none (itemsOf data tr) ∧ itemsBytes (itemsOf data tr) = data ∧
      layout 0 (itemsOf data tr) = tr := by
  unfold readTrace at h
  rw [hm, ok_bind] at h
  obtain ⟨h1, h2, h3⟩ := readLoop_inv h hw
  exact ⟨h1, by simpa [RState.init] using h2, h3⟩

theorem readable_append {rr : Option Bool} {s t : List Item} :
    Readable rr (s ++ t) ↔ Readable rr s ∧ Readable (s.foldl (fun r x => nextRR r x.1) rr) t := by
  induction s generalizing rr with
  | nil => simp [Readable]
  | cons x s ih => simp only [List.cons_append, Readable, ih, List.foldl_cons]; grind

theorem readable_mem {rr : Option Bool} {l : List Item} (h : Readable rr l) :
    ∀ x ∈ l, Complete x.1 := by
  induction l generalizing rr with
  | nil => simp
  | cons y t ih =>
    intro x hx
    rcases List.mem_cons.mp hx with rfl | hx
    · exact h.1
    · exact ih h.2.2.2 x hx

end Rescene
