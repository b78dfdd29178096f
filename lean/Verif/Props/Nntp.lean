import Verif.Lemmas.Nntp
/-
C97: a posted file that is read through its handle gives the bytes of the file.
-/
namespace Rescene.Props
open Rescene Rescene.Spec

/-- C97.  When parts are always downloaded in full, seeking and reading through the handle gives what a plain file
gives, whatever the order and the amounts.  For a RAR file it must begin with its marker and be read as
`UsesOk` says.  Missing: parts that are downloaded only in part (`straddle_wrong`, `between_short`). -/
theorem handle_as_file_partial (f : PostedFile) (he : EvenParts f) (hfull : AlwaysFull f) (ops : List FileUse)
    (hrar : f.isRar = true → 7 ≤ f.firstSize ∧ (whole f).head? = some 0x52 ∧ PlainFile.UsesOk (whole f) ⟨0, false, false⟩ ops) :
    useAll f NState.init ops = PlainFile.uses (whole f) ⟨0, false, false⟩ ops := by
  have hinit : Follows f NState.init ⟨0, false, false⟩ :=
    ⟨rfl, Nat.zero_le _, fun i d h => (by cases h), fun _ => rfl, fun _ => rfl, fun h => (by cases h), fun _ => rfl, fun h => (by cases h)⟩
  revert hinit hrar
  generalize NState.init = st
  generalize (⟨0, false, false⟩ : PlainFile) = p
  induction ops generalizing st p with
  | nil => intro _ _; rfl
  | cons u t ih =>
    intro hrar hf
    unfold useAll PlainFile.uses
    have hstep : match p.use (whole f) u with
        | .ok (r, p') => ∃ st', useHandle f st u = .ok (r, st') ∧ Follows f st' p'
        | .error e => useHandle f st u = .error e := by
      cases u with
      | seek offset origin => exact seek_follows he hfull hf offset origin
      | read size =>
        refine read_follows he hfull hf size (fun hr => ?_)
        obtain ⟨h1, h2, h3⟩ := hrar hr
        exact ⟨h1, h2, h3.1⟩
    cases hu : p.use (whole f) u with
    | error e => rw [hu] at hstep; simp only at hstep; rw [hstep]
    | ok rp =>
      obtain ⟨r, p'⟩ := rp
      rw [hu] at hstep
      obtain ⟨st', h1, h2⟩ := hstep
      rw [h1]
      simp only
      rw [ih st' p' (fun hr => by
        obtain ⟨k1, k2, k3⟩ := hrar hr
        have := k3.2
        rw [hu] at this
        exact ⟨k1, k2, this⟩) h2]

/-- C97.  A file that is no RAR file is read as a whole without loss: SFV, NFO and other files to store. -/
theorem read_whole (f : PostedFile) (he : EvenParts f) (hrar : f.isRar = false) : useAll f NState.init [.read none] = [.ok (some (whole f))] := by
  have hs : ∃ s, f.seg? 1 = some s := by
    rw [seg_succ f 0]
    exact ⟨_, List.getElem?_eq_getElem (List.length_pos_iff.mpr he.1)⟩
  obtain ⟨s, hs⟩ := hs
  have hfirst : NState.init.first f none = .ok { NState.init.grab f 1 none with active := true } := by
    unfold NState.first; rw [hs]
  have hb : Begun f { NState.init.grab f 1 none with active := true } :=
    grab_begun (st := NState.init) (fun i d h => (by cases h)) 1 none
  obtain ⟨k1, k2, k3⟩ := grab_same (f := f) (st := NState.init) 1 none
  have hp : ({ NState.init.grab f 1 none with active := true } : NState).pos = 0 := k1
  obtain ⟨st', h1, _⟩ := read_loose he hrar hb rfl (fun i => congrFun k3 i) (by rw [hp]; exact size_pos he) none (n := f.size) (by
    unfold NState.asked; rw [hp]; rfl) (by rw [hp]; omega) (by
    intro i _ _ d hd
    by_cases hi : i = 1
    · subst hi
      have hd' : (NState.init.grab f 1 none).data 1 = some d := hd
      rw [grab_data hs] at hd'
      rw [hs]; exact hd'
    · have hd' : (NState.init.grab f 1 none).data i = some d := hd
      rw [grab_other none hi] at hd'
      cases hd')
  have hread : NState.init.read f none = .ok (whole f, st') := by
    have h2 : NState.init.read f none = ({ NState.init.grab f 1 none with active := true } : NState).read f none := by
      unfold NState.read
      simp only [show NState.init.active = false from rfl, Bool.false_eq_true, if_false, Option.isSome_none, Bool.false_and, hfirst, ok_bind, if_true]
    rw [h2, h1, hp, List.drop_zero, List.take_of_length_le (show (whole f).length ≤ f.size from Nat.le_refl _)]
  simp only [useAll, useHandle, hread, ok_bind]
  rfl

/-- C97.  Also when parts are downloaded only in part, a read of a file that is no RAR file gives the bytes at the
position of the handle, whatever was done before, if no part that ends inside the wanted range is on hand incompletely.
Missing: that condition can fail (`straddle_wrong`). -/
theorem read_exact_partial (f : PostedFile) (he : EvenParts f) (hrar : f.isRar = false) (ops : List FileUse) (st : NState)
    (hops : handleAfter f NState.init ops = .ok st) (hact : st.active = true) (n : Nat) (hlt : st.pos < f.size) (hn : st.pos + n ≤ f.size)
    (hc : NoneIncomplete f st st.pos (st.pos + n)) :
    ∃ st', useHandle f st (.read (some n)) = .ok (some (((whole f).drop st.pos).take n), st') ∧ st'.pos = st.pos + n := by
  obtain ⟨hb, hs⟩ := after_begun he hrar ops (st := NState.init) (fun i d h => (by cases h)) (fun _ => rfl) hops
  obtain ⟨st', h1, h2, _⟩ := read_loose he hrar hb hact hs hlt (some n) rfl hn hc
  exact ⟨st', by simp only [useHandle, h1, ok_bind]; rfl, h2⟩

/-- C97.  A seek answers with an error outside the file, and else sets the position, for every handle. -/
theorem seek_bounds (f : PostedFile) (st : NState) (hact : st.active = true) (offset : Int) (origin : Nat) (ho : origin ≤ 2) :
    let dest : Int := if origin = 0 then offset else if origin = 1 then st.pos + offset else (whole f).length + offset
    st.seek f offset origin = if 0 ≤ dest ∧ dest ≤ (whole f).length then .ok { st with pos := dest.toNat, didSeek := true } else .error .indexError := by
  intro dest
  have hd : dest = (if origin = 0 then offset else if origin = 1 then (st.pos : Int) + offset else if origin = 2 then (f.size : Int) + offset else 0) := by
    show (if origin = 0 then offset else if origin = 1 then (st.pos : Int) + offset else (f.size : Int) + offset) = _
    have : origin = 0 ∨ origin = 1 ∨ origin = 2 := by omega
    rcases this with h | h | h <;> simp [h]
  have hl : (whole f).length = f.size := rfl
  unfold NState.seek
  rw [if_neg (by simp [hact])]
  simp only [hact, if_true, ok_bind]
  rw [← hd, hl]
  by_cases h1 : dest < 0
  · rw [if_pos h1, if_neg (by omega)]; rfl
  · by_cases h2 : dest > (f.size : Int)
    · rw [if_neg h1, if_pos h2, if_neg (by omega)]; rfl
    · rw [if_neg h1, if_neg h2, if_pos (by omega)]; rfl

/-! ### Examples: a file in three parts -/

/-- Fourteen bytes in parts of four.  Three lines are asked for when a part is not needed in full, and have two bytes. -/
def fourteen (few : Option Nat) (isRar : Bool) : PostedFile :=
  ⟨[[0, 1, 2, 3], [4, 5, 6, 7], [8, 9, 10, 11], [12, 13]], few, fun _ _ => 2, fun _ _ => some 3, isRar, 7⟩

theorem fourteen_even (few : Option Nat) (isRar : Bool) : EvenParts (fourteen few isRar) := by
  refine ⟨by simp [fourteen], ?_⟩
  intro i s h
  have hl : (fourteen few isRar).firstSize = 4 := rfl
  match i, h with
  | 0, h => cases h; exact ⟨by decide, Nat.le_of_ble_eq_true rfl, fun _ => rfl⟩
  | 1, h => cases h; exact ⟨by decide, Nat.le_of_ble_eq_true rfl, fun _ => rfl⟩
  | 2, h => cases h; exact ⟨by decide, Nat.le_of_ble_eq_true rfl, fun _ => rfl⟩
  | 3, h => cases h; exact ⟨by decide, Nat.le_of_ble_eq_true rfl, fun h => absurd h (by show ¬ 4 < 4; omega)⟩
  | k + 4, h => simp [fourteen] at h

example : useAll (fourteen none false) NState.init [.seek 5 0, .read (some 1), .read (some 4), .seek (-3) 2, .read none, .read none, .seek 15 0] =
    [.ok none, .ok (some [5]), .ok (some [6, 7, 8, 9]), .ok none, .ok (some [11, 12, 13]), .ok (some []), .error .indexError] := by
  rw [handle_as_file_partial _ (fourteen_even _ _) (Or.inl rfl) _ (fun h => by cases h)]
  rfl

example : useAll (fourteen (some 4) false) NState.init [.read none] = [.ok (some [0, 1, 2, 3, 4, 5, 6, 7, 8, 9, 10, 11, 12, 13])] :=
  read_whole _ (fourteen_even _ _) rfl

/-- Six bytes of the second part on are read after the first part was read. -/
example : ∃ st st', handleAfter (fourteen (some 4) false) NState.init [.read (some 3)] = .ok st ∧
    useHandle (fourteen (some 4) false) st (.read (some 6)) = .ok (some [3, 4, 5, 6, 7, 8], st') ∧ st'.pos = 9 := by
  have hst : ∃ st, handleAfter (fourteen (some 4) false) NState.init [.read (some 3)] = .ok st ∧ st.active = true ∧ st.pos = 3 ∧
      ∀ i d, st.data i = some d → (fourteen (some 4) false).seg? i = some d := by
    refine ⟨_, rfl, rfl, rfl, ?_⟩
    intro i d h
    by_cases hi : i = 1
    · subst hi; exact h
    · have : (if i = 1 then some ([0, 1, 2, 3] : Bytes) else none) = some d := h
      rw [if_neg hi] at this; cases this
  obtain ⟨st, h1, h2, h3, h4⟩ := hst
  obtain ⟨st', h5, h6⟩ := read_exact_partial _ (fourteen_even _ _) rfl _ st h1 h2 6 (by rw [h3]; decide) (by rw [h3]; decide)
    (fun i _ _ d hd => h4 i d hd)
  exact ⟨st, st', h1, by rw [h5, h3]; rfl, by rw [h6, h3]⟩

/-- A RAR file: the marker, and one block of eight bytes, in parts of seven. -/
def smallRar : PostedFile :=
  ⟨[[0x52, 0x61, 0x72, 0x21, 0x1A, 0x07, 0x00], [1, 2, 0x73, 0, 0, 13, 0], [9, 9, 9, 9, 9, 9]], none, fun _ _ => 2, fun _ _ => some 3, true, 7⟩

theorem smallRar_even : EvenParts smallRar := by
  refine ⟨by simp [smallRar], ?_⟩
  intro i s h
  match i, h with
  | 0, h => cases h; exact ⟨by decide, Nat.le_of_ble_eq_true rfl, fun _ => rfl⟩
  | 1, h => cases h; exact ⟨by decide, Nat.le_of_ble_eq_true rfl, fun _ => rfl⟩
  | 2, h => cases h; exact ⟨by decide, Nat.le_of_ble_eq_true rfl, fun h => absurd h (by show ¬ 3 < 3; omega)⟩
  | k + 3, h => simp [smallRar] at h

example : useAll smallRar NState.init [.read (some 7), .seek 7 0, .read (some 7), .read (some 6)] =
    [.ok (some [0x52, 0x61, 0x72, 0x21, 0x1A, 0x07, 0x00]), .ok none, .ok (some [1, 2, 0x73, 0, 0, 13, 0]), .ok (some [9, 9, 9, 9, 9, 9])] := by
  rw [handle_as_file_partial _ smallRar_even (Or.inl rfl) _ (fun _ => ?_)]
  · rfl
  · refine ⟨by decide, by decide, ?_⟩
    refine ⟨fun _ h => ?_, trivial, fun _ _ => ⟨by decide, 0x73, rfl, by decide, by decide⟩, fun _ h => ?_, trivial⟩
    · exact ⟨by decide, 0x72, rfl, by decide, by decide⟩
    · rcases h with h | h
      · cases h
      · exact absurd h.2 (by decide)

/-! ### What goes wrong -/

/-- C97, the violation: with the saving of traffic, a byte of the second part is read, then four bytes that start in that
part and end in the third.  Of the second part only the beginning is on hand, and the answer is two bytes of the
third part. -/
theorem straddle_wrong :
    useAll (fourteen (some 4) false) NState.init [.seek 5 0, .read (some 1), .read (some 4)] = [.ok none, .ok (some [5]), .ok (some [8, 9])] ∧
    PlainFile.uses (whole (fourteen (some 4) false)) ⟨0, false, false⟩ [.seek 5 0, .read (some 1), .read (some 4)] =
      [.ok none, .ok (some [5]), .ok (some [6, 7, 8, 9])] := by
  constructor <;> decide +kernel

/-- A RAR file in three parts of eight, whose parts are downloaded up to two bytes when traffic is saved. -/
def longRar (few : Option Nat) : PostedFile :=
  ⟨[[0x52, 0x61, 0x72, 0x21, 0x1A, 0x07, 0x00, 1], [2, 3, 4, 5, 6, 7, 8, 9], [10, 11, 12, 13, 14, 15, 16, 17]], few, fun _ _ => 2, fun _ _ => some 3, true, 7⟩

/-- C97, the violation: a RAR file that is read from its first part into its third gives only the first lines of the
part between. -/
theorem between_short :
    useAll (longRar (some 4)) NState.init [.read (some 18)] = [.ok (some [0x52, 0x61, 0x72, 0x21, 0x1A, 0x07, 0x00, 1, 2, 3, 10, 11])] ∧
    useAll (longRar none) NState.init [.read (some 18)] = [.ok (some ((whole (longRar none)).take 18))] := by
  constructor <;> decide +kernel

/-- C97, the violation: seven bytes that are read after a seek to a place of a RAR file where no block starts, but where
one seems to start near by, are those from there, also when all is well with the file. -/
theorem magic_shifts :
    useAll smallRar NState.init [.seek 8 0, .read (some 7)] = [.ok none, .ok (some [1, 2, 0x73, 0, 0, 13, 0])] ∧
    (whole smallRar).drop 8 = [2, 0x73, 0, 0, 13, 0, 9, 9, 9, 9, 9, 9] := by
  constructor <;> decide +kernel

/-- C97, the violation: to read more than is left is an error, though "at most" that many bytes are to be read. -/
theorem past_end : useAll (fourteen none false) NState.init [.seek 10 0, .read (some 5)] = [.ok none, .error .indexError] := by decide +kernel

end Rescene.Props
