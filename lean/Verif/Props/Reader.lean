import Verif.Lemmas.NoFuel
/-
C04: iterating the blocks of a RAR or SRR file.
-/
namespace Rescene.Props
open Rescene Rescene.Spec

/-- A complete iteration `for block in RarReader(f)` from a state: the blocks returned
(with the file position after each) and how it ended: `none` when the reader reported
the end of the file, `some e` when it raised `e`.  There is no budget in this relation. -/
inductive Iterates (mode : Mode) (data : Bytes) : RState → List (Block × Nat) → Option Err → Prop
  | done {st} : readBlock mode data st = .ok none → Iterates mode data st [] none
  | fail {st e} : readBlock mode data st = .error e → Iterates mode data st [] (some e)
  | next {st b st' t o} : readBlock mode data st = .ok (some (b, st')) →
      Iterates mode data st' t o → Iterates mode data st ((b, st'.pos) :: t) o

theorem iterates_aux (mode : Mode) (data : Bytes) (n : Nat) : ∀ st, EndOk mode data st →
    data.length - st.pos ≤ n →
    ∃ t o, Iterates mode data st t o ∧ o ≠ some .fuel ∧ t.length ≤ data.length - st.pos ∧
      (o = none → Tiles mode data t st.recRemoved st.pos data.length ∧ st.pos ≤ data.length ∧
        readLoop mode data (n + 1) st = .ok t) ∧
      (∀ e, o = some e → readLoop mode data (n + 1) st = .error e) := by
  induction n with
  | zero =>
    intro st hinv hn
    cases ho : readBlock mode data st with
    | error e =>
      refine ⟨[], some e, .fail ho, ?_, by simp, by simp, ?_⟩
      · intro h; simp at h; subst h; exact readBlock_no_fuel ho
      · intro e' he; simp at he; subst he; simp [readLoop, ho]
    | ok o =>
      cases o with
      | none =>
        have := readBlock_none ho
        exact ⟨[], none, .done ho, by simp, by simp,
          fun _ => ⟨this, Nat.le_of_eq this, by simp [readLoop, ho]⟩, by simp⟩
      | some p =>
        obtain ⟨b, st'⟩ := p
        obtain ⟨_, h2, _⟩ := readBlock_some hinv ho
        omega
  | succ n ih =>
    intro st hinv hn
    cases ho : readBlock mode data st with
    | error e =>
      refine ⟨[], some e, .fail ho, ?_, by simp, by simp, ?_⟩
      · intro h; simp at h; subst h; exact readBlock_no_fuel ho
      · intro e' he; simp at he; subst he; unfold readLoop; rw [ho]; rfl
    | ok o =>
      cases o with
      | none =>
        have := readBlock_none ho
        refine ⟨[], none, .done ho, by simp, by simp,
          fun _ => ⟨this, Nat.le_of_eq this, ?_⟩, by simp⟩
        unfold readLoop; rw [ho]; rfl
      | some p =>
        obtain ⟨b, st'⟩ := p
        obtain ⟨h1, h2, h3, h4, h5⟩ := readBlock_some hinv ho
        obtain ⟨t, o, ht, hf, hl, hok, herr⟩ := ih st' h4 (by omega)
        refine ⟨_, o, .next ho ht, hf, ?_, ?_, ?_⟩
        · simp; omega
        · intro hn
          obtain ⟨_, _, hr⟩ := hok hn
          have : readLoop mode data (n + 1 + 1) st = .ok ((b, st'.pos) :: t) := by
            rw [readLoop, ho, ok_bind]
            show (readLoop mode data (n + 1) st' >>= _) = _
            rw [hr]; rfl
          exact ⟨(readLoop_tiles hinv this).1, (readLoop_tiles hinv this).2, this⟩
        · intro e he
          have hr := herr e he
          rw [readLoop, ho, ok_bind]
          show (readLoop mode data (n + 1) st' >>= _) = _
          rw [hr]; rfl

/-- C04: iterating any byte string in either mode ends, after at most one block per
byte, with a clean end or with an exception of the reader; on a clean end the blocks
tile the file: the first starts at offset 0, every block starts where the one before
ends, its bytes are the bytes of the file at its position, and the last one ends exactly
at the end of the file. -/
theorem iteration_ends (mode : Mode) (data : Bytes) :
    ∃ blocks outcome, Iterates mode data RState.init blocks outcome ∧ outcome ≠ some .fuel ∧
      blocks.length ≤ data.length ∧
      (outcome = none → Tiles mode data blocks none 0 data.length) := by
  obtain ⟨t, o, h1, h2, h3, h4, _⟩ :=
    iterates_aux mode data data.length RState.init endOk_init (by simp [RState.init])
  exact ⟨t, o, h1, h2, h3, fun h => (h4 h).1⟩

/-- C04: the iteration is deterministic. -/
theorem iteration_deterministic {mode : Mode} {data : Bytes} {st : RState} {t t' : List (Block × Nat)}
    {o o' : Option Err} (h : Iterates mode data st t o) (h' : Iterates mode data st t' o') :
    t = t' ∧ o = o' := by
  induction h generalizing t' o' with
  | done h => cases h' with
    | done => exact ⟨rfl, rfl⟩
    | fail h2 => rw [h] at h2; simp at h2
    | next h2 => rw [h] at h2; simp at h2
  | fail h => cases h' with
    | done h2 => rw [h] at h2; simp at h2
    | fail h2 => rw [h] at h2; simp at h2; simp [h2]
    | next h2 => rw [h] at h2; simp at h2
  | next h _ ih => cases h' with
    | done h2 => rw [h] at h2; simp at h2
    | fail h2 => rw [h] at h2; simp at h2
    | next h2 hr =>
      rw [h] at h2; simp at h2
      obtain ⟨rfl, rfl⟩ := h2
      obtain ⟨rfl, rfl⟩ := ih hr
      exact ⟨rfl, rfl⟩

/-- C04: `RarReader(f).read_all()` is that iteration: it never runs out of budget, it
returns the blocks of the complete iteration, and raises what ended it. -/
theorem readTrace_spec (data : Bytes) :
    (∃ e, openReader data = .error e ∧ readTrace data = .error e) ∨
    (∃ mode blocks, openReader data = .ok mode ∧
      Iterates mode data RState.init blocks none ∧ readTrace data = .ok blocks ∧
      Tiles mode data blocks none 0 data.length) ∨
    (∃ mode blocks e, openReader data = .ok mode ∧ e ≠ .fuel ∧
      Iterates mode data RState.init blocks (some e) ∧ readTrace data = .error e) := by
  cases hm : openReader data with
  | error e => exact Or.inl ⟨e, rfl, by simp [readTrace, hm]⟩
  | ok mode =>
    obtain ⟨t, o, h1, h2, h3, h4, h5⟩ :=
      iterates_aux mode data data.length RState.init endOk_init (by simp [RState.init])
    cases o with
    | none =>
      obtain ⟨h6, _, h7⟩ := h4 rfl
      exact Or.inr (Or.inl ⟨mode, t, rfl, h1, by simp [readTrace, hm, h7], h6⟩)
    | some e =>
      refine Or.inr (Or.inr ⟨mode, t, e, rfl, ?_, h1, ?_⟩)
      · intro h; subst h; exact h2 rfl
      · simp [readTrace, hm, h5 e rfl]

/-- The bytes of one tile: the file between the start of the block and its end. -/
def tileBytes (data : Bytes) (x : Block × Nat) : Bytes := readAt data x.1.pos (x.2 - x.1.pos)

theorem tiles_concat {mode : Mode} {data : Bytes} {t : List (Block × Nat)} {rr : Option Bool} {a : Nat}
    (h : Tiles mode data t rr a data.length) : (t.map (tileBytes data)).flatten = data.drop a := by
  induction t generalizing rr a with
  | nil => simp only [Tiles] at h; subst h; simp
  | cons x t ih =>
    obtain ⟨b, e⟩ := x
    obtain ⟨h1, h2, h3, _, h4⟩ := h
    simp only [List.map_cons, List.flatten_cons, ih h4, tileBytes, readAt, h1]
    have : data.drop e = (data.drop a).drop (e - a) := by
      rw [List.drop_drop]; congr 1; omega
    rw [this]
    exact List.take_append_drop _ _

/-- C04: on a clean end nothing of the file is skipped or read twice: the tiles
concatenate to the whole file. -/
theorem tiles_cover {data : Bytes} {blocks : List (Block × Nat)} (h : readTrace data = .ok blocks) :
    (blocks.map (tileBytes data)).flatten = data := by
  rcases readTrace_spec data with ⟨e, _, h1⟩ | ⟨m, t, _, _, h1, h2⟩ | ⟨m, t, e, _, _, _, h1⟩
  · rw [h] at h1; simp at h1
  · rw [h] at h1; simp at h1; subst h1
    simpa using tiles_concat h2
  · rw [h] at h1; simp at h1

/-- An SRR with a header, a stored file of three bytes and a RAR-file block. -/
def exSrr : Bytes :=
  [0x69, 0x69, 0x69, 0, 0, 7, 0,
   0x6A, 0x6A, 0x6A, 0, 0x80, 14, 0, 3, 0, 0, 0, 1, 0, 0x61, 1, 2, 3,
   0x71, 0x71, 0x71, 0, 0, 10, 0, 1, 0, 0x62]

example : (readTrace exSrr).map (·.map (·.2)) = .ok [7, 24, 34] := by decide
example : (readTrace exSrr).map (·.map (·.1.pos)) = .ok [0, 7, 24] := by decide

end Rescene.Props
