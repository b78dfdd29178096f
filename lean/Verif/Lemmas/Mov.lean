import Verif.Model.Mov
import Verif.Spec.Mov
import Verif.Lemmas.Blocks
import Verif.Lemmas.Crc
/-
Reading sequences of MP4 atoms.
-/
namespace Rescene
open Spec

theorem unpackBeAt_append {k n off : Nat} (a b : Bytes) (ha : a.length = off) (hn : n < 256 ^ k) :
    unpackBeAt k (a ++ (be k n ++ b)) off = .ok n := by
  unfold unpackBeAt
  rw [if_pos (by simp; omega)]
  congr 1
  rw [show slice (a ++ (be k n ++ b)) off (off + k) = be k n from ?_, ofBe_be_of_lt hn]
  subst ha
  unfold slice
  rw [List.drop_take]
  simp

/-- What the reader takes for the size of an atom. -/
def atomSize (total pos : Nat) (form : MovForm) (type : Bytes) (n : Nat) : Nat :=
  match form with
  | .narrow => 8 + n
  | .wide => 16 + n
  | .unsized => if type = nullType then 8 else total - pos

theorem movHeader_length {form : MovForm} {type : Bytes} {n : Nat} (h4 : type.length = 4) :
    (movHeader form type n).length = if form = .wide then 16 else 8 := by
  cases form <;> simp [movHeader, h4]

theorem movRead_header {mode : MovMode} {pre post : Bytes} {form : MovForm} {type : Bytes} {n total : Nat}
    (h4 : type.length = 4) (hn : form.Holds n) (ht : total = (pre ++ (movHeader form type n ++ post)).length)
    (hfit : mode = .sample → type ≠ aMdat → pre.length + atomSize total pre.length form type n ≤ total) :
    movRead mode (pre ++ (movHeader form type n ++ post)) pre.length =
      .ok (some ⟨atomSize total pre.length form type n, type, movHeader form type n, pre.length⟩) := by
  have hl := movHeader_length (form := form) (n := n) h4
  unfold movRead
  rw [if_neg (by simp only [List.length_append, hl]; split <;> omega)]
  have key : ∀ (x : Nat) (r : Bytes), x < 256 ^ 4 → movHeader form type n = be 4 x ++ (type ++ r) →
      readAt (pre ++ (movHeader form type n ++ post)) pre.length 8 = be 4 x ++ type := by
    intro x r _ e
    rw [e, show be 4 x ++ (type ++ r) ++ post = (be 4 x ++ type) ++ (r ++ post) by simp]
    exact readAt_append _ _ _ rfl (by simp [h4])
  have hd : ∀ x : Nat, (be 4 x ++ type).drop 4 = type := by
    intro x
    rw [List.drop_append_of_le_length (by simp), List.drop_of_length_le (by simp), List.nil_append]
  have hu : ∀ x : Nat, x < 256 ^ 4 → unpackBeAt 4 (be 4 x ++ type) 0 = .ok x := by
    intro x hx
    exact unpackBeAt_append [] type rfl hx
  have hchk : ¬ (mode = .sample ∧ type ≠ aMdat ∧ pre.length + atomSize total pre.length form type n >
      (pre ++ (movHeader form type n ++ post)).length) := by
    rintro ⟨h1, h2, h3⟩
    have := hfit h1 h2
    omega
  cases form with
  | narrow =>
    have hn' : 8 + n < 256 ^ 4 := by simp only [MovForm.Holds] at hn; omega
    simp only [key (8 + n) [] hn' (by simp [movHeader])]
    rw [hu _ hn', ok_bind, hd, if_neg (by omega), if_neg (by omega)]
    simp only [ok_bind]
    exact if_neg hchk
  | wide =>
    have hn' : 16 + n < 256 ^ 8 := by simp only [MovForm.Holds] at hn; omega
    simp only [key 1 (be 8 (16 + n)) (by decide) rfl]
    rw [hu _ (by decide), ok_bind, hd, if_pos rfl]
    have hr : readAt (pre ++ (movHeader .wide type n ++ post)) (pre.length + 8) 8 = be 8 (16 + n) := by
      rw [show pre ++ (movHeader .wide type n ++ post) = (pre ++ (be 4 1 ++ type)) ++ (be 8 (16 + n) ++ post) by
        simp [movHeader]]
      exact readAt_append _ _ _ (by simp [h4]) (by simp)
    have hu8 : unpackBeAt 8 (be 8 (16 + n)) 0 = .ok (16 + n) := by
      have := unpackBeAt_append (k := 8) [] [] rfl hn'
      simpa using this
    simp only [hr, hu8, ok_bind, pure_eq_ok]
    refine (if_neg hchk).trans ?_
    simp [movHeader, atomSize]
  | unsized =>
    simp only [key 0 [] (by decide) (by simp [movHeader])]
    rw [hu _ (by decide), ok_bind, hd, if_neg (by omega), if_pos rfl]
    have e : (if type = aNull then (.ok (8, be 4 0 ++ type) : Res (Nat × Bytes))
        else .ok ((pre ++ (movHeader .unsized type n ++ post)).length - pre.length, be 4 0 ++ type)) =
        .ok (atomSize total pre.length .unsized type n, movHeader .unsized type n) := by
      simp only [atomSize, movHeader]
      split
      · rename_i h; rw [if_pos (show type = nullType from h)]
      · rename_i h; rw [if_neg (show ¬ type = nullType from h), ht]; rfl
    rw [e, ok_bind]
    dsimp only
    rw [if_neg hchk]
    rfl

def Spec.MovPart.atom (total pos : Nat) : MovPart → MovAtom
  | .enter form type n => ⟨atomSize total pos form type n, type, movHeader form type n, pos⟩
  | .leaf form type data => ⟨atomSize total pos form type data.length, type, movHeader form type data.length, pos⟩

def Spec.MovPart.data (how : Bytes → MovHow) : MovPart → Bytes
  | .enter .. => []
  | .leaf _ type data => if how type = .skip then [] else data

def Spec.MovPart.item (how : Bytes → MovHow) (total pos : Nat) (p : MovPart) : MovItem := ⟨p.atom total pos, p.data how⟩

/-- The parts are treated as what they are. -/
def Suits (how : Bytes → MovHow) : MovPart → Prop
  | .enter form type n => type.length = 4 ∧ form.Holds n ∧ how type = .child
  | .leaf form type data => type.length = 4 ∧ form.Holds data.length ∧ how type ≠ .child

theorem movHeader_ge {form : MovForm} {type : Bytes} {n : Nat} (h4 : type.length = 4) : 8 ≤ (movHeader form type n).length := by
  rw [movHeader_length h4]; split <;> omega

theorem Suits.length {how : Bytes → MovHow} {p : MovPart} (h : Suits how p) : 8 ≤ p.bytes.length := by
  cases p with
  | enter form type n => exact movHeader_ge h.1
  | leaf form type data =>
    have := movHeader_ge (form := form) (n := data.length) h.1
    simp [MovPart.bytes]; omega

theorem atomSize_leaf {total pos : Nat} {form : MovForm} {type data : Bytes} (h4 : type.length = 4)
    (he : form = .unsized → (type = nullType ∧ data = []) ∨
      (type ≠ nullType ∧ total = pos + (movHeader form type data.length ++ data).length)) :
    atomSize total pos form type data.length = (movHeader form type data.length).length + data.length := by
  rw [movHeader_length h4]
  cases form with
  | narrow => rfl
  | wide => rfl
  | unsized =>
    simp only [atomSize]
    rcases he rfl with ⟨h, rfl⟩ | ⟨h, e⟩
    · rw [if_pos h]; rfl
    · rw [if_neg h, e, List.length_append, movHeader_length h4]
      simp only [reduceCtorEq, if_false]
      omega

/-- One part is read. -/
theorem mov_part {mode : MovMode} {how : Bytes → MovHow} {pre post : Bytes} {p : MovPart} {total : Nat}
    (hs : Suits how p) (ht : total = (pre ++ (p.bytes ++ post)).length) (hbig : total < 2 ^ 63)
    (he : ∀ type data, p = .leaf .unsized type data → (type = nullType ∧ data = []) ∨ (type ≠ nullType ∧ post = []))
    (hf : ∀ form type n, p = .enter form type n → mode = .sample → form ≠ .unsized → n ≤ post.length) :
    movRead mode (pre ++ (p.bytes ++ post)) pre.length = .ok (some (p.atom total pre.length)) ∧
    movContents (how p.type) (pre ++ (p.bytes ++ post)) (p.atom total pre.length) =
      .ok (p.data how, (pre ++ p.bytes).length) := by
  cases p with
  | enter form type n =>
    obtain ⟨h4, hn, hc⟩ := hs
    have hl := movHeader_length (form := form) (n := n) h4
    constructor
    · refine movRead_header h4 hn ht fun hm hne => ?_
      have : total = pre.length + ((movHeader form type n).length + post.length) := by rw [ht]; simp [MovPart.bytes]
      cases form with
      | narrow =>
        have := hf _ _ _ rfl hm (by decide)
        simp only [atomSize]; simp at hl; omega
      | wide =>
        have := hf _ _ _ rfl hm (by decide)
        simp only [atomSize]; simp at hl; omega
      | unsized =>
        simp only [atomSize]
        simp at hl
        split <;> omega
    · unfold movContents
      simp only [MovPart.type, hc, MovPart.data, MovPart.atom, MovPart.bytes, List.length_append]
  | leaf form type data =>
    obtain ⟨h4, hn, hc⟩ := hs
    have hb : (MovPart.leaf form type data).bytes ++ post = movHeader form type data.length ++ (data ++ post) := by
      simp [MovPart.bytes]
    have hlen : total = pre.length + ((movHeader form type data.length).length + (data.length + post.length)) := by
      rw [ht]; simp [MovPart.bytes]
    have hsize := atomSize_leaf (total := total) (pos := pre.length) (form := form) (data := data) h4 (by
      intro e
      subst e
      rcases he _ _ rfl with h | ⟨h, rfl⟩
      · exact Or.inl h
      · refine Or.inr ⟨h, ?_⟩
        rw [hlen]; simp)
    constructor
    · rw [hb] at ht ⊢
      refine movRead_header h4 hn ht fun _ _ => ?_
      rw [hsize]; omega
    · rw [hb]
      have hr : readAt (pre ++ (movHeader form type data.length ++ (data ++ post)))
          (pre.length + (movHeader form type data.length).length) data.length = data := by
        rw [show pre ++ (movHeader form type data.length ++ (data ++ post)) =
          (pre ++ movHeader form type data.length) ++ (data ++ post) by simp]
        exact readAt_append _ _ _ (by simp) rfl
      have hge := movHeader_ge (form := form) (n := data.length) h4
      unfold movContents
      simp only [MovPart.type, MovPart.data, MovPart.atom, hsize]
      cases hh : how type with
      | child => exact absurd hh hc
      | skip =>
        dsimp only
        rw [if_pos (by omega), if_pos rfl]
        simp [MovPart.bytes]
      | read =>
        dsimp only
        rw [if_neg (by omega), if_neg (by omega), if_pos (by omega), Nat.add_sub_cancel_left, hr, if_neg (by simp)]
        simp [MovPart.bytes]; omega
      | chunks =>
        dsimp only
        rw [if_neg (by omega), if_neg (by omega), Nat.add_sub_cancel_left, hr, if_neg (by simp)]
        simp [MovPart.bytes]; omega

/-- The items of a sequence of parts, the first one at `pos`. -/
def movItems (how : Bytes → MovHow) (total : Nat) : Nat → List MovPart → List MovItem
  | _, [] => []
  | pos, p :: ps => p.item how total pos :: movItems how total (pos + p.bytes.length) ps

theorem movBytes_cons (p : MovPart) (ps : List MovPart) : movBytes (p :: ps) = p.bytes ++ movBytes ps := by simp [movBytes]
theorem movBytes_append (a b : List MovPart) : movBytes (a ++ b) = movBytes a ++ movBytes b := by simp [movBytes]
@[simp] theorem movBytes_nil : movBytes [] = [] := rfl

theorem Spec.Ends.tail {p : MovPart} {ps : List MovPart} (h : Ends (p :: ps)) : Ends ps := by
  cases p with
  | enter => exact h
  | leaf => exact h.2

theorem Spec.Fits.tail {p : MovPart} {ps : List MovPart} (h : Fits (p :: ps)) : Fits ps := by
  cases p with
  | enter => exact h.2
  | leaf => exact h

theorem movLoop_parts {σ : Type} {mode : MovMode} {how : Bytes → MovHow} {f : σ → MovItem → Res σ} {parts : List MovPart}
    {pre : Bytes} {total fuel : Nat} {s : σ} (hs : ∀ p ∈ parts, Suits how p) (ht : total = (pre ++ movBytes parts).length)
    (hbig : total < 2 ^ 63) (he : Ends parts) (hf : mode = .sample → Fits parts) (hfu : parts.length < fuel) :
    movLoop mode how (pre ++ movBytes parts) f fuel pre.length s = (movItems how total pre.length parts).foldlM f s := by
  induction parts generalizing pre fuel s with
  | nil =>
    obtain ⟨k, rfl⟩ : ∃ k, fuel = k + 1 := ⟨fuel - 1, by simp at hfu; omega⟩
    simp only [movLoop, movItems, List.foldlM_nil]
    rw [show movRead mode (pre ++ movBytes []) pre.length = .ok none by
      unfold movRead; rw [if_pos (by simp)]]
    rfl
  | cons p ps ih =>
    obtain ⟨k, rfl⟩ : ∃ k, fuel = k + 1 := ⟨fuel - 1, by simp at hfu; omega⟩
    rw [movBytes_cons] at ht ⊢
    obtain ⟨h1, h2⟩ := mov_part (mode := mode) (how := how) (pre := pre) (post := movBytes ps) (p := p) (hs p (by simp)) ht hbig
      (by
        rintro type data rfl
        rcases he.1 rfl with h | ⟨h, rfl⟩
        · exact Or.inl h
        · exact Or.inr ⟨h, rfl⟩)
      (by
        rintro form type n rfl hm hu
        exact (hf hm).1 hu)
    simp only [movLoop, movItems, List.foldlM_cons]
    rw [h1, ok_bind]
    dsimp only
    have hty : (p.atom total pre.length).type = p.type := by cases p <;> rfl
    rw [hty, h2, ok_bind]
    dsimp only
    cases hfs : f s (p.item how total pre.length) with
    | error e => rw [show f s { atom := p.atom total pre.length, data := p.data how } = _ from hfs]; rfl
    | ok s' =>
      rw [show f s { atom := p.atom total pre.length, data := p.data how } = _ from hfs]
      simp only [ok_bind]
      have e : pre ++ (p.bytes ++ movBytes ps) = (pre ++ p.bytes) ++ movBytes ps := by simp
      rw [e, ih (fun q hq => hs q (by simp [hq])) (by rw [ht, e]) he.tail (fun hm => (hf hm).tail) (by simp at hfu; omega)]
      simp

theorem parts_count {how : Bytes → MovHow} {parts : List MovPart} (hs : ∀ p ∈ parts, Suits how p) :
    parts.length ≤ (movBytes parts).length := by
  induction parts with
  | nil => simp
  | cons p ps ih =>
    have h1 := Suits.length (hs p (by simp))
    have h2 := ih fun q hq => hs q (by simp [hq])
    rw [movBytes_cons]; simp; omega

theorem movWalk_parts {σ : Type} {mode : MovMode} {how : Bytes → MovHow} {f : σ → MovItem → Res σ} {parts : List MovPart}
    {s : σ} (hs : ∀ p ∈ parts, Suits how p) (hbig : (movBytes parts).length < 2 ^ 63) (he : Ends parts)
    (hf : mode = .sample → Fits parts) :
    movWalk mode how (movBytes parts) f s = (movItems how (movBytes parts).length 0 parts).foldlM f s := by
  unfold movWalk
  have := parts_count hs
  exact movLoop_parts (pre := []) hs (by simp) hbig he hf (by omega)

end Rescene
