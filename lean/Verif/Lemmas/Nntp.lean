import Verif.Spec.Nntp
/-
Lemmas for files that are read through a handle.
-/
namespace Rescene
open Spec

theorem seg_succ (f : PostedFile) (i : Nat) : f.seg? (i + 1) = f.segs[i]? := by
  simp [PostedFile.seg?]

theorem seg_pos {f : PostedFile} {i : Nat} {s : Bytes} (h : f.seg? i = some s) : 1 ≤ i ∧ i ≤ f.segs.length ∧ f.segs[i - 1]? = some s := by
  unfold PostedFile.seg? at h
  split at h
  · cases h
  · have := (List.getElem?_eq_some_iff.mp h).1
    exact ⟨by omega, by omega, h⟩

theorem first_pos {f : PostedFile} (he : EvenParts f) : 0 < f.firstSize := by
  obtain ⟨hne, h⟩ := he
  cases hs : f.segs with
  | nil => exact absurd hs hne
  | cons s t =>
    have h1 := h 0 s (by rw [hs]; rfl)
    have : f.firstSize = s.length := by
      unfold PostedFile.firstSize
      rw [seg_succ f 0, hs]
      rfl
    omega

theorem take_length {f : PostedFile} (he : EvenParts f) : ∀ {i : Nat}, i < f.segs.length → (f.segs.take i).flatten.length = f.firstSize * i := by
  intro i
  induction i with
  | zero => intro _; simp
  | succ i ih =>
    intro h
    have hi : i < f.segs.length := by omega
    rw [List.take_succ_eq_append_getElem hi, List.flatten_append, List.length_append, ih hi]
    have := (he.2 i f.segs[i] (List.getElem?_eq_getElem hi)).2.2 h
    simp [this, Nat.mul_succ]

theorem whole_split {f : PostedFile} {i : Nat} {s : Bytes} (h : f.segs[i]? = some s) :
    whole f = (f.segs.take i).flatten ++ (s ++ (f.segs.drop (i + 1)).flatten) := by
  unfold whole
  obtain ⟨hi, hs⟩ := List.getElem?_eq_some_iff.mp h
  conv => lhs; rw [← List.take_append_drop i f.segs, List.drop_eq_getElem_cons hi, hs]
  simp

theorem size_split {f : PostedFile} (he : EvenParts f) {i : Nat} {s : Bytes} (h : f.segs[i]? = some s) :
    f.size = f.firstSize * i + (s.length + (f.segs.drop (i + 1)).flatten.length) := by
  have h1 := congrArg List.length (whole_split h)
  have hi := (List.getElem?_eq_some_iff.mp h).1
  rw [List.length_append, take_length he hi, List.length_append] at h1
  exact h1

theorem drop_at {f : PostedFile} (he : EvenParts f) {a o : Nat} {s : Bytes} (h : f.seg? a = some s) (ho : o ≤ s.length) :
    (whole f).drop (f.firstSize * (a - 1) + o) = s.drop o ++ (f.segs.drop a).flatten := by
  obtain ⟨h1, h2, h3⟩ := seg_pos h
  rw [whole_split h3, List.drop_append, take_length he (by omega), List.drop_of_length_le (by rw [take_length he (by omega)]; omega),
    List.nil_append, List.drop_append, show f.firstSize * (a - 1) + o - f.firstSize * (a - 1) = o by omega,
    show o - s.length = 0 by omega, List.drop_zero, show a - 1 + 1 = a by omega]

theorem which_ok {f : PostedFile} (he : EvenParts f) {off : Nat} (h : off ≤ f.size) :
    ∃ a o s, f.which off = .ok (a, o) ∧ f.seg? a = some s ∧ o ≤ s.length ∧ off = f.firstSize * (a - 1) + o ∧ (a ≠ 1 → 0 < o) := by
  have hS := first_pos he
  have hn : 0 < f.segs.length := List.length_pos_iff.mpr he.1
  have hlast := size_split he (i := f.segs.length - 1) (s := f.segs[f.segs.length - 1]) (List.getElem?_eq_getElem (by omega))
  rw [show f.segs.length - 1 + 1 = f.segs.length by omega, List.drop_length] at hlast
  have hl := he.2 (f.segs.length - 1) f.segs[f.segs.length - 1] (List.getElem?_eq_getElem (by omega))
  generalize hL : f.segs[f.segs.length - 1] = L at hlast hl
  simp only [List.flatten_nil, List.length_nil, Nat.add_zero] at hlast
  generalize hSd : f.firstSize = S at *
  have hdm := Nat.div_add_mod off S
  have hml := Nat.mod_lt off hS
  have key : ∀ a o, 1 ≤ a → off = S * (a - 1) + o → o ≤ S → (a ≤ f.segs.length) →
      ∃ s, f.seg? a = some s ∧ o ≤ s.length := by
    intro a o ha hoff ho han
    refine ⟨f.segs[a - 1], ?_, ?_⟩
    · unfold PostedFile.seg?
      rw [if_neg (by omega), List.getElem?_eq_getElem (by omega)]
    · by_cases hlt : a < f.segs.length
      · have := (he.2 (a - 1) f.segs[a - 1] (List.getElem?_eq_getElem (by omega))).2.2 (by omega)
        rw [hSd] at this
        omega
      · have : a = f.segs.length := by omega
        subst this
        rw [hL]
        omega
  unfold PostedFile.which
  rw [if_neg (by omega), hSd, if_neg (by omega)]
  generalize off / S = Q at *
  generalize off % S = R at *
  have hq : Q ≤ f.segs.length := by
    by_cases hle : Q ≤ f.segs.length
    · exact hle
    · have h1 : S * (f.segs.length + 1) ≤ S * (Q) := Nat.mul_le_mul_left _ (by omega)
      have h2 : S * (f.segs.length - 1 + 1) = S * (f.segs.length - 1) + S := Nat.mul_succ _ _
      rw [show f.segs.length - 1 + 1 = f.segs.length by omega] at h2
      rw [Nat.mul_succ] at h1
      omega
  by_cases hc : R = 0 ∧ Q ≠ 0
  · rw [if_pos hc]
    simp only [Nat.add_zero]
    have hm : S * (Q - 1 + 1) = S * (Q - 1) + S := Nat.mul_succ _ _
    rw [show Q - 1 + 1 = Q by omega] at hm
    obtain ⟨s, h1, h2⟩ := key (Q) S (by omega) (by omega) (Nat.le_refl _) hq
    exact ⟨Q, _, s, rfl, h1, by omega, by omega, fun _ => by omega⟩
  · rw [if_neg hc]
    have hlt : Q + 1 ≤ f.segs.length := by
      by_cases hle : Q + 1 ≤ f.segs.length
      · exact hle
      · exfalso
        have heq : Q = f.segs.length := by omega
        have h2 : S * (f.segs.length - 1 + 1) = S * (f.segs.length - 1) + S := Nat.mul_succ _ _
        rw [show f.segs.length - 1 + 1 = f.segs.length by omega] at h2
        rw [heq] at hdm
        exact hc ⟨by omega, by omega⟩
    obtain ⟨s, h1, h2⟩ := key (Q + 1) (R) (by omega) (by rw [Nat.add_sub_cancel]; omega) (by omega) hlt
    have hsub : off - S * (Q + 1 - 1) = R := by rw [Nat.add_sub_cancel]; omega
    refine ⟨Q + 1, _, s, rfl, h1, by omega, by rw [hsub, Nat.add_sub_cancel]; omega, fun ha => ?_⟩
    rw [hsub]
    by_cases h0 : R = 0
    · exact absurd ⟨h0, by omega⟩ hc
    · omega

theorem which_le {f : PostedFile} (he : EvenParts f) {p q a o b r : Nat} {s t : Bytes} (hpq : p ≤ q) (h1 : f.seg? a = some s) (h2 : f.seg? b = some t)
    (ho : r ≤ t.length) (hp : p = f.firstSize * (a - 1) + o) (hq : q = f.firstSize * (b - 1) + r) (h0 : a ≠ 1 → 0 < o) : a ≤ b := by
  by_cases hle : a ≤ b
  · exact hle
  · exfalso
    obtain ⟨ha, _, _⟩ := seg_pos h1
    obtain ⟨hb, hb2, hb3⟩ := seg_pos h2
    have ht := (he.2 _ _ hb3).2.1
    have h3 : f.firstSize * (b - 1 + 1) ≤ f.firstSize * (a - 1) := Nat.mul_le_mul_left _ (by omega)
    rw [Nat.mul_succ] at h3
    have := h0 (by omega)
    omega

/-! ### Giving the data -/

theorem prefix_take {d s : Bytes} (h : d <+: s) {n : Nat} (hn : min n s.length ≤ d.length) : d.take n = s.take n := by
  obtain ⟨t, rfl⟩ := h
  rw [List.take_append]
  by_cases hle : n ≤ d.length
  · simp [show n - d.length = 0 by omega]
  · rw [List.length_append] at hn
    have : t = [] := List.length_eq_zero_iff.mp (by omega)
    simp [this]

theorem moreParts_exact {f : PostedFile} {st : NState} : ∀ (parts : List Bytes) (fuel next size : Nat), (∀ j, f.seg? (next + j) = parts[j]?) →
    parts.length ≤ fuel → size ≤ parts.flatten.length →
    (∀ j s, parts[j]? = some s → (parts.take j).flatten.length < size →
      ∃ d, st.data (next + j) = some d ∧ d <+: s ∧ min (size - (parts.take j).flatten.length) s.length ≤ d.length) →
    moreParts f st fuel next size = .ok (parts.flatten.take size, (size : Int)) := by
  intro parts
  induction parts with
  | nil =>
    intro fuel next size _ _ hs _
    have : size = 0 := by simpa using hs
    subst this
    cases fuel <;> simp [moreParts]
  | cons s t ih =>
    intro fuel next size hseg hfuel hs hd
    obtain ⟨fuel, rfl⟩ : ∃ k, fuel = k + 1 := ⟨fuel - 1, by simp at hfuel; omega⟩
    unfold moreParts
    by_cases h0 : size = 0
    · subst h0; simp
    rw [if_neg (by omega)]
    obtain ⟨d, hd0, hp, hl⟩ := hd 0 s rfl (by simpa using Nat.pos_of_ne_zero h0)
    have hs0 : f.seg? next = some s := by simpa using hseg 0
    rw [Nat.add_zero] at hd0
    simp only [List.take_zero, List.flatten_nil, List.length_nil, Nat.sub_zero] at hl
    rw [hs0, hd0]
    simp only
    by_cases hlt : s.length > size
    · rw [if_pos (by omega), Int.toNat_natCast, prefix_take hp hl, List.flatten_cons, List.take_append_of_le_length (by omega)]
    · rw [if_neg (by omega)]
      have hds : d = s := by
        obtain ⟨u, rfl⟩ := hp
        rw [List.length_append] at hl hlt
        have : u = [] := List.length_eq_zero_iff.mp (by omega)
        simp [this]
      subst hds
      rw [List.flatten_cons, List.length_append] at hs
      rw [show (size : Int) - (d.length : Int) = ((size - d.length : Nat) : Int) by omega, ih fuel (next + 1) (size - d.length)
        (fun j => by rw [show next + 1 + j = next + (j + 1) by omega, hseg (j + 1)]; rfl) (by rw [List.length_cons] at hfuel; omega) (by omega) ?_]
      · rw [ok_bind]
        simp only [pure_eq_ok, List.flatten_cons, Except.ok.injEq, Prod.mk.injEq]
        refine ⟨?_, by omega⟩
        rw [List.take_append, List.take_of_length_le (l := d) (by omega)]
      · intro j s' hj hlj
        obtain ⟨d', h1, h2, h3⟩ := hd (j + 1) s' (by simpa using hj) (by
          simp only [List.take_succ_cons, List.flatten_cons, List.length_append]; omega)
        refine ⟨d', by rw [show next + 1 + j = next + (j + 1) by omega]; exact h1, h2, ?_⟩
        simp only [List.take_succ_cons, List.flatten_cons, List.length_append] at h3
        rw [show size - d.length - (t.take j).flatten.length = size - (d.length + (t.take j).flatten.length) by omega]
        exact h3

/-- The data of part `i` that is needed for the file up to position `upTo` is there. -/
def Covered (f : PostedFile) (st : NState) (upTo i : Nat) : Prop :=
  ∃ s d, f.seg? i = some s ∧ st.data i = some d ∧ d <+: s ∧ min (upTo - f.firstSize * (i - 1)) s.length ≤ d.length

theorem giveData_exact {f : PostedFile} (he : EvenParts f) {st : NState} {a orig e endOff n : Nat} {s s' : Bytes} (hs : f.seg? a = some s)
    (ho : orig ≤ s.length) (hpos : st.pos = f.firstSize * (a - 1) + orig) (hn : st.pos + n ≤ f.size)
    (hs' : f.seg? e = some s') (ho' : endOff ≤ s'.length) (hend : st.pos + n = f.firstSize * (e - 1) + endOff)
    (hc : ∀ i, a ≤ i → i ≤ e → Covered f st (st.pos + n) i) (hae : a ≤ e) :
    giveData f st a orig orig n = .ok (((whole f).drop st.pos).take n, { st with pos := st.pos + n, didSeek := false }) := by
  obtain ⟨s2, d, h1, hd, hp, hl⟩ := hc a (Nat.le_refl _) hae
  rw [hs] at h1; cases h1
  have hdrop := drop_at he hs ho
  rw [← hpos] at hdrop
  have hsl : sliceAt d (orig : Int) = orig := by unfold sliceAt; rw [if_neg (by omega)]; rfl
  unfold giveData
  simp only [hd, Option.getD_some, hsl, List.length_drop]
  rw [show st.pos + n - f.firstSize * (a - 1) = orig + n by omega] at hl
  have hdl : d.length ≤ s.length := hp.length_le
  by_cases hfit : orig + n ≤ s.length
  · rw [if_pos (by omega), Int.toNat_natCast, hdrop]
    congr 2
    have ht := prefix_take hp hl
    rw [List.take_append_of_le_length (by rw [List.length_drop]; omega)]
    have h2 : ∀ x : Bytes, (x.drop orig).take n = (x.take (orig + n)).drop orig := by
      intro x; rw [List.drop_take]; congr 1; omega
    rw [h2 d, h2 s, ht]
  · have hds : d = s := by
      obtain ⟨u, rfl⟩ := hp
      rw [List.length_append] at hl hfit
      have : u = [] := List.length_eq_zero_iff.mp (by omega)
      simp [this]
    subst hds
    rw [if_neg (by omega)]
    obtain ⟨ha1, han, ha2⟩ := seg_pos hs
    have hsz := size_split he ha2
    rw [show a - 1 + 1 = a by omega] at hsz
    have hint : (n : Int) - (((d.length - orig : Nat) : Int) + ((orig : Int) - (orig : Int))) = ((n - (d.length - orig) : Nat) : Int) := by omega
    rw [hint, moreParts_exact (f.segs.drop a) f.segs.length (a + 1) (n - (d.length - orig)) ?_ (by rw [List.length_drop]; omega) (by omega) ?_, ok_bind]
    · simp only
      rw [Int.toNat_natCast, if_neg (by omega), pure_eq_ok, hdrop]
      congr 2
      · rw [List.take_append, List.take_of_length_le (l := d.drop orig) (by rw [List.length_drop]; omega), List.length_drop]
      · congr 1; omega
    · intro j
      rw [show a + 1 + j = (a + j) + 1 by omega, seg_succ, List.getElem?_drop]
    · intro j t hj hlj
      rw [List.getElem?_drop] at hj
      have hjl := (List.getElem?_eq_some_iff.mp hj).1
      have htl : ((f.segs.drop a).take j).flatten.length = f.firstSize * (a + j) - f.firstSize * a := by
        have h1 := take_length he hjl
        rw [List.take_add, List.flatten_append, List.length_append, take_length he (by omega)] at h1
        omega
      have hda : d.length = f.firstSize := (he.2 (a - 1) d ha2).2.2 (by omega)
      have hma : f.firstSize * (a - 1 + 1) = f.firstSize * (a - 1) + f.firstSize := Nat.mul_succ _ _
      rw [show a - 1 + 1 = a by omega] at hma
      have hmono : f.firstSize * a ≤ f.firstSize * (a + j) := Nat.mul_le_mul_left _ (by omega)
      have hje : a + 1 + j ≤ e := by
        obtain ⟨he1, he2, he3⟩ := seg_pos hs'
        have hs2 := (he.2 _ _ he3).2.1
        by_cases hle : a + 1 + j ≤ e
        · exact hle
        · exfalso
          have h5 : f.firstSize * (e - 1 + 1) ≤ f.firstSize * (a + j) := Nat.mul_le_mul_left _ (by omega)
          rw [Nat.mul_succ] at h5
          omega
      obtain ⟨t2, d', h1, h2, h3, h4⟩ := hc (a + 1 + j) (by omega) hje
      rw [show a + 1 + j = (a + j) + 1 by omega, seg_succ, hj] at h1
      cases h1
      refine ⟨d', h2, h3, ?_⟩
      rw [htl]
      rw [show a + 1 + j - 1 = a + j by omega] at h4
      rw [show n - (d.length - orig) - (f.firstSize * (a + j) - f.firstSize * a) = st.pos + n - f.firstSize * (a + j) by omega]
      exact h4

/-! ### All data complete -/

/-- Everything that was downloaded is complete. -/
def Complete (f : PostedFile) (st : NState) : Prop := ∀ i d, st.data i = some d → f.seg? i = some d

/-- Only complete parts were added. -/
structure Grown (f : PostedFile) (st st' : NState) : Prop where
  pos : st'.pos = st.pos
  active : st'.active = st.active
  didSeek : st'.didSeek = st.didSeek
  endMagic : st'.endMagic = st.endMagic
  shift : st'.shift = st.shift
  full : Complete f st'
  more : ∀ i d, st.data i = some d → st'.data i = some d

theorem Grown.refl {f : PostedFile} {st : NState} (h : Complete f st) : Grown f st st := ⟨rfl, rfl, rfl, rfl, rfl, h, fun _ _ h => h⟩

theorem Grown.trans {f : PostedFile} {a b c : NState} (h : Grown f a b) (h' : Grown f b c) : Grown f a c :=
  ⟨h'.pos.trans h.pos, h'.active.trans h.active, h'.didSeek.trans h.didSeek, h'.endMagic.trans h.endMagic, h'.shift.trans h.shift, h'.full,
    fun i d x => h'.more i d (h.more i d x)⟩

theorem grab_grown {f : PostedFile} {st : NState} (h : Complete f st) (i : Nat) : Grown f st (st.grab f i none) := by
  unfold NState.grab
  cases hs : f.seg? i with
  | none => exact Grown.refl h
  | some s =>
    refine ⟨rfl, rfl, rfl, rfl, rfl, ?_, ?_⟩
    · intro j d hd
      simp only at hd
      split at hd
      · rename_i hj; subst hj; rw [hs]; exact hd
      · exact h j d hd
    · intro j d hd
      simp only
      split
      · rename_i hj; subst hj; rw [← hs]; exact h j d hd
      · exact hd

theorem grab_data {f : PostedFile} {st : NState} {i : Nat} {s : Bytes} (hs : f.seg? i = some s) : (st.grab f i none).data i = some s := by
  unfold NState.grab; rw [hs]; simp

theorem peek_grown {f : PostedFile} {st : NState} (h : Complete f st) (a : Nat) (off : Int) : Grown f st (st.peek f a off).1 := by
  unfold NState.peek
  simp only
  split
  · exact Grown.refl h
  · split
    · exact Grown.refl h
    · split
      · exact grab_grown h _
      · exact Grown.refl h

theorem peek_bytes {f : PostedFile} (he : EvenParts f) (h7 : 7 ≤ f.firstSize) {st : NState} (h : Complete f st) {a o : Nat} {s : Bytes}
    (hs : f.seg? a = some s) (hd : st.data a = some s) (ho : o ≤ s.length) (hl : f.firstSize * (a - 1) + o + 7 ≤ f.size) :
    (st.peek f a (o : Int)).2 = ((whole f).drop (f.firstSize * (a - 1) + o)).take 7 := by
  rw [drop_at he hs ho]
  obtain ⟨ha1, han, ha2⟩ := seg_pos hs
  have hsz := size_split he ha2
  rw [show a - 1 + 1 = a by omega] at hsz
  have hslice : partSlice s (o : Int) ((o : Int) + 7) = (s.drop o).take 7 := by
    unfold partSlice sliceAt
    rw [if_neg (by omega), if_neg (by omega)]
    congr 1
    omega
  have hlen : ((s.drop o).take 7).length = min 7 (s.length - o) := by rw [List.length_take, List.length_drop]
  unfold NState.peek
  simp only [hd, Option.getD_some, hslice]
  by_cases hc : ((s.drop o).take 7).length = 7
  · rw [if_pos hc, List.take_append_of_le_length (by rw [List.length_drop]; omega)]
  · rw [if_neg hc]
    have hnext : ∃ t, f.seg? (a + 1) = some t := by
      rw [seg_succ]
      have : a < f.segs.length := by
        by_cases hlt : a < f.segs.length
        · exact hlt
        · rw [List.drop_of_length_le (by omega)] at hsz
          simp only [List.flatten_nil, List.length_nil] at hsz
          omega
      exact ⟨_, List.getElem?_eq_getElem this⟩
    obtain ⟨t, ht⟩ := hnext
    have htt : (f.segs.drop a).flatten = t ++ (f.segs.drop (a + 1)).flatten := by
      rw [seg_succ] at ht
      obtain ⟨hi, hg⟩ := List.getElem?_eq_some_iff.mp ht
      rw [List.drop_eq_getElem_cons hi, hg, List.flatten_cons]
    have hsl : s.length - o < 7 := by omega
    have htl : 7 - (s.length - o) ≤ t.length := by
      have ht2 := ht
      rw [seg_succ] at ht2
      by_cases hlt : a + 1 < f.segs.length
      · have := (he.2 a t ht2).2.2 hlt
        omega
      · rw [htt, List.drop_of_length_le (i := a + 1) (by omega)] at hsz
        simp only [List.flatten_nil, List.append_nil] at hsz
        omega
    have hres : ((s.drop o).take 7) ++ t.take (7 - ((s.drop o).take 7).length) = (s.drop o ++ (f.segs.drop a).flatten).take 7 := by
      rw [List.take_append, htt, List.take_append_of_le_length (l₁ := t) (by rw [List.length_drop]; omega), hlen, List.length_drop]
      congr 2
      omega
    cases hdn : st.data (a + 1) with
    | some d =>
      have := h _ _ hdn
      rw [ht] at this
      cases this
      exact hres
    | none =>
      simp only [ht]
      exact hres

theorem magic_stays {f : PostedFile} (he : EvenParts f) (h7 : 7 ≤ f.firstSize) {st : NState} (h : Complete f st) {a o : Nat} {s : Bytes} (amount : Nat)
    (hs : f.seg? a = some s) (hd : st.data a = some s) (ho : o ≤ s.length) (hb : BlockAt (whole f) (f.firstSize * (a - 1) + o)) :
    Grown f st (magic f st a (o : Int) amount).1 ∧ (magic f st a (o : Int) amount).2 = (o : Int) := by
  obtain ⟨hl, t, ht, h1, h2⟩ := hb
  have hp := peek_bytes he h7 h hs hd ho hl
  have hty : blockTypeIn (st.peek f a (o : Int)).2 = t.toNat := by
    rw [hp]
    unfold blockTypeIn
    have hlen : (((whole f).drop (f.firstSize * (a - 1) + o)).take 7).length = 7 := by
      rw [List.length_take, List.length_drop]; omega
    rw [if_pos hlen]
    have : (((whole f).drop (f.firstSize * (a - 1) + o)).take 7).getD 2 0 = t := by
      rw [List.getD_eq_getElem?_getD, List.getElem?_take, if_pos (by omega), List.getElem?_drop, ht]; rfl
    rw [this]
  have hr : isRarBlockType t.toNat = true := by simp [isRarBlockType, h1, h2]
  unfold magic
  simp only [magicLoop, Int.add_zero, hty, hr, if_true]
  exact ⟨peek_grown h a _, trivial⟩

theorem fetchOne_full {f : PostedFile} (he : EvenParts f) (hfew : AlwaysFull f) {st : NState} (h : Complete f st) {a e endOff o i : Nat} {toEnd : Bool} {s sa : Bytes}
    (hs : f.seg? i = some s) (hsa : f.seg? a = some sa) (ho : o ≤ sa.length)
    (hrar : f.isRar = true → i = a → st.data a = none → 7 ≤ f.firstSize ∧ BlockAt (whole f) (f.firstSize * (a - 1) + o)) :
    ∃ st', fetchOne f a e toEnd endOff st (o : Int) i = .ok (st', (o : Int)) ∧ Grown f st st' ∧ st'.data i = some s := by
  have hs0 : s ≠ [] := by
    obtain ⟨_, _, h3⟩ := seg_pos hs
    have := (he.2 _ _ h3).1
    intro h0; rw [h0] at this; simp at this
  unfold fetchOne
  cases hd : st.data i with
  | some d =>
    have := h i d hd
    rw [hs] at this
    cases this
    simp only [hs, if_neg hs0]
    exact ⟨st, rfl, Grown.refl h, hd⟩
  | none =>
    have hcond : (f.few.isSome && i == e && a != 1 && a != f.segs.length) = false := by
      rcases hfew with hf | ⟨_, hl⟩
      · simp [hf]
      · obtain ⟨h1, h2, _⟩ := seg_pos hsa
        have : a = 1 ∨ a = f.segs.length := by omega
        rcases this with h3 | h3
        · subst h3; simp
        · rw [← h3]; simp
    have husual : (if toEnd = true then none else if (f.isRar && a == 1) = true then f.few else none) = none := by
      rcases hfew with hf | ⟨hr, _⟩
      · simp [hf]
      · simp [hr]
    simp only [hs, hcond, husual, Bool.false_eq_true, if_false]
    have hg := grab_grown h i
    have hgd : (st.grab f i none).data i = some s := grab_data hs
    by_cases hm : (i == a && f.isRar) = true
    · simp only [hm, if_true]
      simp only [Bool.and_eq_true, beq_iff_eq] at hm
      obtain ⟨rfl, hr⟩ := hm
      rw [hsa] at hs; cases hs
      obtain ⟨h7, hb⟩ := hrar hr rfl hd
      obtain ⟨hg2, hoff⟩ := magic_stays he h7 hg.full 7 hsa hgd ho hb
      have hd2 := hg2.more _ _ hgd
      rw [hd2, hoff, if_neg (by intro hc; cases hc; exact hs0 rfl), if_neg (by intro hc; cases hc; exact hs0 rfl)]
      exact ⟨_, rfl, hg.trans hg2, hd2⟩
    · simp only [Bool.not_eq_true] at hm
      simp only [hm, Bool.false_eq_true, if_false, hgd]
      rw [if_neg (by intro hc; cases hc; exact hs0 rfl), if_neg (by intro hc; cases hc; exact hs0 rfl)]
      exact ⟨_, rfl, hg, hgd⟩

theorem fetchAll_full {f : PostedFile} (he : EvenParts f) (hfew : AlwaysFull f) {a e endOff o : Nat} {toEnd : Bool} {sa : Bytes}
    (hsa : f.seg? a = some sa) (ho : o ≤ sa.length) : ∀ (l : List Nat) {st : NState}, Complete f st → (∀ i ∈ l, ∃ s, f.seg? i = some s) →
    (f.isRar = true → st.data a = none → 7 ≤ f.firstSize ∧ BlockAt (whole f) (f.firstSize * (a - 1) + o)) →
    ∃ st', fetchAll f a e toEnd endOff st (o : Int) l = .ok (st', (o : Int)) ∧ Grown f st st' ∧ ∀ i ∈ l, st'.data i = f.seg? i := by
  intro l
  induction l with
  | nil => intro st h _ _; exact ⟨st, rfl, Grown.refl h, by simp⟩
  | cons i t ih =>
    intro st h hall hrar
    obtain ⟨s, hs⟩ := hall i (by simp)
    obtain ⟨st1, h1, g1, d1⟩ := fetchOne_full (e := e) (endOff := endOff) (toEnd := toEnd) he hfew h hs hsa ho (fun hr _ hn => hrar hr hn)
    obtain ⟨st2, h2, g2, d2⟩ := ih g1.full (fun j hj => hall j (by simp [hj])) (fun hr hn => by
      cases hda : st.data a with
      | none => exact hrar hr hda
      | some d => rw [g1.more _ _ hda] at hn; cases hn)
    refine ⟨st2, ?_, g1.trans g2, ?_⟩
    · unfold fetchAll; rw [h1, ok_bind]; exact h2
    · intro j hj
      rcases List.mem_cons.mp hj with rfl | hj
      · rw [hs]; exact g2.more _ _ d1
      · exact d2 j hj

theorem endBlock_stays {f : PostedFile} (he : EvenParts f) {st : NState} (h : Complete f st) {a o : Nat} {s : Bytes}
    (hs : f.seg? a = some s) (hd : st.data a = some s) (ho : o ≤ s.length)
    (hrar : f.isRar = true → nearEnd f.size st.pos = true → st.endMagic = false → 7 ≤ f.firstSize ∧ BlockAt (whole f) (f.firstSize * (a - 1) + o)) :
    (endBlockMagic f st a (o : Int)).2 = (o : Int) ∧
    Grown f { st with endMagic := st.endMagic || (f.isRar && nearEnd f.size st.pos) } (endBlockMagic f st a (o : Int)).1 := by
  unfold endBlockMagic
  by_cases hc : (f.isRar && [20, 18, 7, 9, 11, 13, 14, 16, 26].contains (f.size - st.pos) && !st.endMagic) = true
  · have hc' := hc
    simp only [Bool.and_eq_true, Bool.not_eq_true'] at hc'
    obtain ⟨⟨hr, hn⟩, hem⟩ := hc'
    obtain ⟨h7, hb⟩ := hrar hr hn hem
    simp only [hc, if_true]
    have hst : (st.endMagic || (f.isRar && nearEnd f.size st.pos)) = true := by
      rw [hr]; unfold nearEnd; rw [hn]; simp
    rw [hst]
    have h0 : Complete f { st with endMagic := true } := h
    have hd0 : ({ st with endMagic := true } : NState).data a = some s := hd
    generalize ({ st with endMagic := true } : NState) = st0 at h0 hd0 ⊢
    generalize f.size - st.pos = left
    unfold endBlockTry
    generalize hoff : ((((st0.data a).getD []).length : Int) - (left : Int)) = off
    simp only [hoff]
    have hg1 := peek_grown h0 a off
    have hd1 := hg1.more _ _ hd0
    generalize hpk : st0.peek f a off = pk at hg1 hd1 ⊢
    obtain ⟨st1, shead⟩ := pk
    simp only at hg1 hd1 ⊢
    generalize (7 + (if hasFlag (blockFlagsIn shead) 2 = true then 4 else 0) + (if hasFlag (blockFlagsIn shead) 4 = true then 7 else 0) +
      (if hasFlag (blockFlagsIn shead) 8 = true then 2 else 0)) = number
    split
    · have key : ∀ {stx : NState} (amount : Nat), Grown f st0 stx → stx.data a = some s →
          (magic f stx a (o : Int) amount).2 = (o : Int) ∧ Grown f st0 (magic f stx a (o : Int) amount).1 ∧ (magic f stx a (o : Int) amount).1.data a = some s := by
        intro stx amount hg hdx
        obtain ⟨hg2, ho2⟩ := magic_stays he h7 hg.full amount hs hdx ho hb
        exact ⟨ho2, hg.trans hg2, hg2.more _ _ hdx⟩
      generalize (if ((f.seg? a).getD []).length - ((st1.data a).getD []).length > 7 then
          ((f.seg? a).getD []).length - ((st1.data a).getD []).length + 1 else 7) = amount
      by_cases hn1 : number = left
      · simp only [if_pos hn1]
        obtain ⟨k1, k2, k3⟩ := key amount hg1 hd1
        generalize magic f st1 a (o : Int) amount = m at k1 k2 k3 ⊢
        obtain ⟨stm, om⟩ := m
        simp only at k1 k2 k3 ⊢
        subst k1
        split
        · obtain ⟨j1, j2, _⟩ := key 7 k2 k3
          exact ⟨j1, j2⟩
        · exact ⟨rfl, k2⟩
      · simp only [if_neg hn1]
        split
        · obtain ⟨j1, j2, _⟩ := key 7 hg1 hd1
          exact ⟨j1, j2⟩
        · exact ⟨rfl, hg1⟩
    · exact ⟨rfl, hg1⟩
  · simp only [hc]
    refine ⟨rfl, ?_⟩
    have hst : (st.endMagic || (f.isRar && nearEnd f.size st.pos)) = st.endMagic := by
      unfold nearEnd
      revert hc
      cases f.isRar <;> cases st.endMagic <;> simp
    rw [hst]
    exact Grown.refl h

theorem grabRest_grown {f : PostedFile} {st : NState} (h : Complete f st) (a orig : Nat) (off size : Int) (e endOff : Nat) :
    Grown f st (grabRest f st a orig off size e endOff) := by
  unfold grabRest
  simp only
  split <;> split
  · exact (grab_grown h 1).trans (grab_grown (grab_grown h 1).full e)
  · exact grab_grown h 1
  · exact grab_grown h e
  · exact Grown.refl h

theorem marker_inert {f : PostedFile} (he : EvenParts f) {st : NState} (h : Complete f st) (hd : st.pos = 0 → (st.data 1).isSome = true)
    (hR : f.isRar = true → (whole f).head? = some 0x52) : markerMagic f st = st := by
  unfold markerMagic
  split
  · rename_i hc
    simp only [Bool.and_eq_true, beq_iff_eq] at hc
    obtain ⟨d, hd1⟩ := Option.isSome_iff_exists.mp (hd hc.2)
    have hs := h 1 d hd1
    have hhead : ∃ t, d = 0x52 :: t := by
      have hw := whole_split (f := f) (i := 0) (s := d) (by rw [← seg_succ]; exact hs)
      have := hR hc.1
      rw [hw] at this
      obtain ⟨hpos, _⟩ := he.2 0 d (by rw [← seg_succ]; exact hs)
      cases d with
      | nil => simp at hpos
      | cons x t => simp at this; exact ⟨t, by rw [this]⟩
    obtain ⟨t, rfl⟩ := hhead
    simp only [hd1, Option.getD_some]
    rw [show ([1, 2, 3, 4].find? fun k => (([0x52, 0x61, 0x72, 0x21, 0x1A, 0x07, 0x00] : Bytes).drop k).isPrefixOf (0x52 :: t)) = none by
      simp [List.find?, List.isPrefixOf]]
  · rfl

theorem header_stays {f : PostedFile} (he : EvenParts f) {st : NState} (h : Complete f st) {a o : Nat} {s : Bytes} (size : Int)
    (hs : f.seg? a = some s) (hd : st.data a = some s) (ho : o ≤ s.length)
    (hrar : f.isRar = true → st.didSeek = true → 7 ≤ f.firstSize ∧ BlockAt (whole f) (f.firstSize * (a - 1) + o)) :
    (headerMagic f st a size (o : Int)).2 = (o : Int) ∧ Grown f st (headerMagic f st a size (o : Int)).1 := by
  unfold headerMagic
  split
  · rename_i hc
    simp only [Bool.and_eq_true] at hc
    obtain ⟨h7, hb⟩ := hrar hc.1.1 hc.2
    obtain ⟨hg, hoff⟩ := magic_stays he h7 h 7 hs hd ho hb
    generalize magic f st a (o : Int) 7 = m at hg hoff ⊢
    obtain ⟨st1, after⟩ := m
    simp only at hg hoff ⊢
    subst hoff
    have hg2 := peek_grown hg.full a (o : Int)
    generalize st1.peek f a (o : Int) = pk at hg2 ⊢
    obtain ⟨st2, shead⟩ := pk
    simp only at hg2 ⊢
    split
    · split
      · exact ⟨rfl, hg.trans hg2⟩
      · exact ⟨rfl, hg.trans hg2⟩
    · exact ⟨rfl, hg.trans hg2⟩
  · exact ⟨rfl, Grown.refl h⟩

/-- The conditions under which nothing goes wrong for a RAR file. -/
def RarFine (f : PostedFile) (st : NState) (sought : Bool) : Prop :=
  f.isRar = true → 7 ≤ f.firstSize ∧ (whole f).head? = some 0x52 ∧
    (st.pos < f.size → (sought = true ∨ (nearEnd f.size st.pos = true ∧ st.endMagic = false)) → BlockAt (whole f) st.pos)

theorem read_full {f : PostedFile} (he : EvenParts f) (hfew : AlwaysFull f) {st : NState} (h : Complete f st) (hact : st.active = true)
    (hshift : ∀ i, st.shift i = none) (hlt : st.pos < f.size) {sought : Bool} (hsk : st.didSeek = true → sought = true)
    (hpart : sought = false → ∀ a o, f.which st.pos = .ok (a, o) → (st.data a).isSome = true) (hrar : RarFine f st sought) (size : Option Nat) {n : Nat}
    (hn : st.asked f size = n) :
    if st.pos + n ≤ f.size then
      ∃ st', st.read f size = .ok (((whole f).drop st.pos).take n, st') ∧ st'.pos = st.pos + n ∧ st'.active = true ∧ st'.didSeek = false ∧
        st'.endMagic = (st.endMagic || (f.isRar && nearEnd f.size st.pos)) ∧ (∀ i, st'.shift i = none) ∧ Complete f st' ∧
        ∀ a o, f.which (st.pos + n) = .ok (a, o) → (st'.data a).isSome = true
    else st.read f size = .error .indexError := by
  obtain ⟨a, o, sa, hwa, hsa, hoa, hpa, ha0⟩ := which_ok he (Nat.le_of_lt hlt)
  split
  · rename_i hle
    obtain ⟨e, eo, se, hwe, hse, hoe, hpe, he0⟩ := which_ok he hle
    have hae := which_le he (by omega) hsa hse hoe hpa hpe ha0
    obtain ⟨ha1, _, _⟩ := seg_pos hsa
    obtain ⟨_, hen, _⟩ := seg_pos hse
    have hb : f.isRar = true → (sought = true ∨ (nearEnd f.size st.pos = true ∧ st.endMagic = false)) → 7 ≤ f.firstSize ∧ BlockAt (whole f) (f.firstSize * (a - 1) + o) := by
      intro hr hc
      obtain ⟨h7, _, hb⟩ := hrar hr
      rw [← hpa]
      exact ⟨h7, hb hlt hc⟩
    obtain ⟨st1, hf1, hg1, hd1⟩ := fetchAll_full (e := e) (endOff := eo) (toEnd := size.isNone) he hfew hsa hoa
      ((List.range (e + 1 - a)).map fun k => a + k) h (by
        intro i hi
        simp only [List.mem_map, List.mem_range] at hi
        obtain ⟨k, hk, rfl⟩ := hi
        rw [show a + k = (a + k - 1) + 1 by omega, seg_succ]
        exact ⟨_, List.getElem?_eq_getElem (by omega)⟩) (by
        intro hr hnone
        cases hss : sought with
        | true => exact hb hr (Or.inl hss)
        | false => have := hpart hss a o hwa; rw [hnone] at this; cases this)
    have hd1' : ∀ i, a ≤ i → i ≤ e → st1.data i = f.seg? i := fun i h1 h2 => hd1 i (by
      simp only [List.mem_map, List.mem_range]; exact ⟨i - a, by omega, by omega⟩)
    have hda := hd1' a (Nat.le_refl _) hae
    rw [hsa] at hda
    obtain ⟨ho2, hg2⟩ := endBlock_stays he hg1.full hsa hda hoa (fun hr hne hem => hb hr (Or.inr ⟨by rw [← hg1.pos]; exact hne, by rw [← hg1.endMagic]; exact hem⟩))
    have hr3 := grabRest_grown hg2.full a o (o : Int) (n : Int) e eo
    have hmark : markerMagic f (grabRest f (endBlockMagic f st1 a (o : Int)).1 a o (o : Int) (n : Int) e eo) =
        grabRest f (endBlockMagic f st1 a (o : Int)).1 a o (o : Int) (n : Int) e eo := by
      refine marker_inert he hr3.full ?_ (fun hr => (hrar hr).2.1)
      intro hp0
      have hp0' : st.pos = 0 := by
        rw [hr3.pos, hg2.pos] at hp0
        rw [← hg1.pos]; exact hp0
      have ha : a = 1 := by
        by_cases hc : a = 1
        · exact hc
        · have := ha0 hc; omega
      subst ha
      rw [hr3.more _ _ (hg2.more _ _ hda)]; rfl
    have hd3 := hr3.more _ _ (hg2.more _ _ hda)
    obtain ⟨ho4, hg4⟩ := header_stays he hr3.full (n : Int) hsa hd3 hoa (fun hr hds => hb hr (Or.inl (hsk (by
      rw [hr3.didSeek, hg2.didSeek] at hds
      rw [← hg1.didSeek]; exact hds))))
    have hgive := giveData_exact (st := (headerMagic f (grabRest f (endBlockMagic f st1 a (o : Int)).1 a o (o : Int) (n : Int) e eo) a (n : Int) (o : Int)).1)
      he (n := n) (e := e) (endOff := eo) (s' := se) hsa hoa (by rw [hg4.pos, hr3.pos, hg2.pos]; exact hg1.pos.trans hpa)
      (by rw [hg4.pos, hr3.pos, hg2.pos]; exact Nat.le_trans (Nat.le_of_eq (congrArg (· + n) hg1.pos)) hle) hse hoe
      (by rw [hg4.pos, hr3.pos, hg2.pos]; exact (congrArg (· + n) hg1.pos).trans hpe) (by
        intro i h1 h2
        have hi := hd1' i h1 h2
        have hsome : ∃ s, f.seg? i = some s := by
          rw [show i = (i - 1) + 1 by omega, seg_succ]
          exact ⟨_, List.getElem?_eq_getElem (by omega)⟩
        obtain ⟨s, hs⟩ := hsome
        rw [hs] at hi
        exact ⟨s, s, hs, hg4.more _ _ (hr3.more _ _ (hg2.more _ _ hi)), List.prefix_refl _, by omega⟩) hae
    have hpos4 : (headerMagic f (grabRest f (endBlockMagic f st1 a (o : Int)).1 a o (o : Int) (n : Int) e eo) a (n : Int) (o : Int)).1.pos = st.pos := by
      rw [hg4.pos, hr3.pos, hg2.pos]; exact hg1.pos
    have hgrow := (hg2.trans hr3).trans hg4
    generalize hlast : (headerMagic f (grabRest f (endBlockMagic f st1 a (o : Int)).1 a o (o : Int) (n : Int) e eo) a (n : Int) (o : Int)).1 = last at *
    refine ⟨{ last with pos := st.pos + n, didSeek := false }, ?_, rfl, ?_, rfl, ?_, ?_, hgrow.full, ?_⟩
    · unfold NState.read
      simp only [hact, if_true, ok_bind]
      rw [if_neg (by omega), hwa, ok_bind]
      simp only [show st.extra a = 0 by unfold NState.extra; rw [hshift], hn, hwe, ok_bind, Int.add_zero]
      rw [hf1, ok_bind]
      simp only [ho2, hmark, ho4]
      rw [hlast, hgive, hpos4]
    · exact hgrow.active.trans (hg1.active.trans hact)
    · refine hgrow.endMagic.trans ?_
      rw [hg1.pos, hg1.endMagic]
    · intro i
      exact (congrFun hgrow.shift i).trans ((congrFun hg1.shift i).trans (hshift i))
    · intro a' o' hw
      rw [hwe] at hw
      cases hw
      have hi := hd1' e hae (Nat.le_refl _)
      rw [hse] at hi
      rw [show (({ last with pos := st.pos + n, didSeek := false } : NState).data e) = last.data e from rfl, hgrow.more _ _ hi]
      rfl
  · rename_i hgt
    unfold NState.read
    simp only [hact, if_true, ok_bind]
    rw [if_neg (by omega), hwa, ok_bind]
    simp only [hn]
    rw [show f.which (st.pos + n) = .error .indexError by unfold PostedFile.which; rw [if_pos (by omega)], error_bind]

/-! ### Data that may be incomplete -/

/-- What was downloaded of a part is the beginning of it. -/
def Begun (f : PostedFile) (st : NState) : Prop := ∀ i d, st.data i = some d → ∃ s, f.seg? i = some s ∧ d <+: s

/-- More was downloaded, and what was complete is still complete. -/
structure Loose (f : PostedFile) (st st' : NState) : Prop where
  pos : st'.pos = st.pos
  active : st'.active = st.active
  shift : st'.shift = st.shift
  begun : Begun f st'
  full : ∀ i d, f.seg? i = some d → st.data i = some d → st'.data i = some d
  some : ∀ i, (st.data i).isSome = true → (st'.data i).isSome = true

theorem Loose.refl {f : PostedFile} {st : NState} (h : Begun f st) : Loose f st st := ⟨rfl, rfl, rfl, h, fun _ _ _ h => h, fun _ h => h⟩

theorem Loose.trans {f : PostedFile} {a b c : NState} (h : Loose f a b) (h' : Loose f b c) : Loose f a c :=
  ⟨h'.pos.trans h.pos, h'.active.trans h.active, h'.shift.trans h.shift, h'.begun,
    fun i d x y => h'.full i d x (h.full i d x y), fun i x => h'.some i (h.some i x)⟩

theorem grab_begun {f : PostedFile} {st : NState} (h : Begun f st) (i : Nat) (lines : Option Nat) : Begun f (st.grab f i lines) := by
  unfold NState.grab
  cases hs : f.seg? i with
  | none => exact h
  | some s =>
    intro j d hd
    simp only at hd
    split at hd
    · rename_i hj
      subst hj
      refine ⟨s, hs, ?_⟩
      cases hd
      split
      · split
        · exact List.take_prefix _ _
        · exact List.prefix_refl _
      · exact List.prefix_refl _
    · exact h j d hd

theorem grab_other {f : PostedFile} {st : NState} {i j : Nat} (lines : Option Nat) (h : j ≠ i) : (st.grab f i lines).data j = st.data j := by
  unfold NState.grab
  cases f.seg? i with
  | none => rfl
  | some s => simp [h]

theorem grab_same {f : PostedFile} {st : NState} (i : Nat) (lines : Option Nat) :
    (st.grab f i lines).pos = st.pos ∧ (st.grab f i lines).active = st.active ∧ (st.grab f i lines).shift = st.shift := by
  unfold NState.grab
  cases f.seg? i with
  | none => exact ⟨rfl, rfl, rfl⟩
  | some s => exact ⟨rfl, rfl, rfl⟩

theorem grab_some {f : PostedFile} {st : NState} {i : Nat} {s : Bytes} (lines : Option Nat) (hs : f.seg? i = some s) : ((st.grab f i lines).data i).isSome = true := by
  unfold NState.grab; rw [hs]; simp

theorem grab_loose_new {f : PostedFile} {st : NState} (h : Begun f st) {i : Nat} (lines : Option Nat) (hd : st.data i = none) : Loose f st (st.grab f i lines) := by
  obtain ⟨h1, h2, h3⟩ := grab_same (f := f) (st := st) i lines
  refine ⟨h1, h2, h3, grab_begun h i lines, ?_, ?_⟩
  · intro j d _ hj
    by_cases hji : j = i
    · subst hji; rw [hd] at hj; cases hj
    · rw [grab_other lines hji]; exact hj
  · intro j hj
    by_cases hji : j = i
    · subst hji; rw [hd] at hj; cases hj
    · rw [grab_other lines hji]; exact hj

theorem grab_loose {f : PostedFile} {st : NState} (h : Begun f st) (i : Nat) : Loose f st (st.grab f i none) := by
  obtain ⟨h1, h2, h3⟩ := grab_same (f := f) (st := st) i none
  refine ⟨h1, h2, h3, grab_begun h i none, ?_, ?_⟩
  · intro j d hs hj
    by_cases hji : j = i
    · subst hji; exact grab_data hs
    · rw [grab_other none hji]; exact hj
  · intro j hj
    by_cases hji : j = i
    · subst hji
      obtain ⟨d, hd⟩ := Option.isSome_iff_exists.mp hj
      obtain ⟨s, hs, _⟩ := h _ _ hd
      rw [grab_data hs]; rfl
    · rw [grab_other none hji]; exact hj

theorem fetchOne_loose {f : PostedFile} (he : EvenParts f) (hrar : f.isRar = false) {st : NState} (h : Begun f st) {a e endOff i : Nat} {toEnd : Bool} {off : Int} {s : Bytes}
    (hs : f.seg? i = some s) :
    ∃ st', fetchOne f a e toEnd endOff st off i = .ok (st', off) ∧ Loose f st st' ∧ (st'.data i).isSome = true ∧ (∀ j, j ≠ i → st'.data j = st.data j) ∧
      (i ≠ e → st.data i = none ∨ st.data i = some s → st'.data i = some s) := by
  have hs0 : s ≠ [] := by
    obtain ⟨_, _, h3⟩ := seg_pos hs
    have := (he.2 _ _ h3).1
    intro h0; rw [h0] at this; simp at this
  unfold fetchOne
  cases hd : st.data i with
  | some d =>
    simp only [hs, hrar, Option.some.injEq, if_neg hs0]
    split
    · refine ⟨_, rfl, grab_loose h i, grab_some none hs, fun j hj => grab_other none hj, fun _ _ => grab_data hs⟩
    · refine ⟨st, rfl, Loose.refl h, by rw [hd]; rfl, fun _ _ => rfl, fun _ hc => ?_⟩
      rcases hc with hc | hc
      · cases hc
      · rw [hd]; exact congrArg some hc
  | none =>
    simp only [hs, hrar, Bool.false_and, Bool.and_false, Bool.false_eq_true, if_false, ite_self, Option.some.injEq, if_neg hs0]
    generalize hlines : (if (f.few.isSome && i == e && a != 1 && a != f.segs.length) = true then
      match f.lines i endOff with
        | some k => some k
        | none => none
      else none) = lines
    have hl : i ≠ e → lines = none := by
      intro hie
      rw [← hlines, if_neg (by simp [hie])]
    have hg := grab_loose_new h lines hd
    split
    · refine ⟨_, rfl, hg.trans (grab_loose hg.begun i), grab_some none hs, fun j hj => ?_, fun _ _ => grab_data hs⟩
      rw [grab_other none hj, grab_other lines hj]
    · refine ⟨_, rfl, hg, grab_some lines hs, fun j hj => grab_other lines hj, fun hie _ => ?_⟩
      rw [hl hie]
      exact grab_data hs

theorem fetchAll_loose {f : PostedFile} (he : EvenParts f) (hrar : f.isRar = false) {a e endOff : Nat} {toEnd : Bool} {off : Int} :
    ∀ (l : List Nat) {st : NState}, Begun f st → (∀ i ∈ l, ∃ s, f.seg? i = some s) →
    ∃ st', fetchAll f a e toEnd endOff st off l = .ok (st', off) ∧ Loose f st st' ∧
      ∀ i ∈ l, (st'.data i).isSome = true ∧ (i ≠ e → st.data i = none ∨ st.data i = f.seg? i → st'.data i = f.seg? i) := by
  intro l
  induction l with
  | nil => intro st h _; exact ⟨st, rfl, Loose.refl h, by simp⟩
  | cons i t ih =>
    intro st h hall
    obtain ⟨s, hs⟩ := hall i (by simp)
    obtain ⟨st1, h1, g1, d1, o1, c1⟩ := fetchOne_loose (a := a) (e := e) (endOff := endOff) (toEnd := toEnd) (off := off) he hrar h hs
    obtain ⟨st2, h2, g2, d2⟩ := ih g1.begun (fun j hj => hall j (by simp [hj]))
    refine ⟨st2, ?_, g1.trans g2, ?_⟩
    · unfold fetchAll; rw [h1, ok_bind]; exact h2
    · intro j hj
      by_cases hji : j = i
      · subst hji
        refine ⟨g2.some _ d1, fun hje hc => ?_⟩
        rw [hs] at hc ⊢
        exact g2.full _ _ hs (c1 hje hc)
      · have hj' : j ∈ t := by simpa [hji] using hj
        refine ⟨(d2 j hj').1, fun hje hc => (d2 j hj').2 hje ?_⟩
        rw [o1 j hji]; exact hc

theorem read_loose {f : PostedFile} (he : EvenParts f) (hrar : f.isRar = false) {st : NState} (h : Begun f st) (hact : st.active = true)
    (hshift : ∀ i, st.shift i = none) (hlt : st.pos < f.size) (size : Option Nat) {n : Nat} (hn : st.asked f size = n) (hle : st.pos + n ≤ f.size)
    (hfull : NoneIncomplete f st st.pos (st.pos + n)) :
    ∃ st', st.read f size = .ok (((whole f).drop st.pos).take n, st') ∧ st'.pos = st.pos + n ∧ st'.active = true ∧ (∀ i, st'.shift i = none) ∧ Begun f st' := by
  obtain ⟨a, o, sa, hwa, hsa, hoa, hpa, ha0⟩ := which_ok he (Nat.le_of_lt hlt)
  obtain ⟨e, eo, se, hwe, hse, hoe, hpe, he0⟩ := which_ok he hle
  have hae := which_le he (by omega) hsa hse hoe hpa hpe ha0
  obtain ⟨ha1, _, ha3⟩ := seg_pos hsa
  obtain ⟨_, hen, _⟩ := seg_pos hse
  have hseg : ∀ i, a ≤ i → i ≤ e → ∃ s, f.seg? i = some s := by
    intro i h1 h2
    rw [show i = (i - 1) + 1 by omega, seg_succ]
    exact ⟨_, List.getElem?_eq_getElem (by omega)⟩
  obtain ⟨st1, hf1, hg1, hd1⟩ := fetchAll_loose (a := a) (e := e) (endOff := eo) (toEnd := size.isNone) (off := (o : Int)) he hrar
    ((List.range (e + 1 - a)).map fun k => a + k) h (by
      intro i hi
      simp only [List.mem_map, List.mem_range] at hi
      obtain ⟨k, hk, rfl⟩ := hi
      exact hseg _ (by omega) (by omega))
  have hd1' : ∀ i, a ≤ i → i ≤ e → (st1.data i).isSome = true ∧ (i ≠ e → st.data i = none ∨ st.data i = f.seg? i → st1.data i = f.seg? i) :=
    fun i h1 h2 => hd1 i (by simp only [List.mem_map, List.mem_range]; exact ⟨i - a, by omega, by omega⟩)
  have hmid : ∀ i, a ≤ i → i < e → st1.data i = f.seg? i := by
    intro i h1 h2
    refine (hd1' i h1 (by omega)).2 (by omega) ?_
    cases hdi : st.data i with
    | none => exact Or.inl rfl
    | some d =>
      refine Or.inr (hfull i ?_ ?_ d hdi).symm
      rotate_left
      · have : f.firstSize * i ≤ f.firstSize * (e - 1) := Nat.mul_le_mul_left _ (by omega)
        have := he0 (by omega)
        omega
      · have h3 : f.firstSize * (a - 1 + 1) ≤ f.firstSize * i := Nat.mul_le_mul_left _ (by omega)
        rw [Nat.mul_succ] at h3
        have := (he.2 _ _ ha3).2.1
        omega
  have hend : endBlockMagic f st1 a (o : Int) = (st1, (o : Int)) := by unfold endBlockMagic; simp [hrar]
  generalize hst2 : grabRest f st1 a o (o : Int) (n : Int) e eo = st2
  have hg2 : Loose f st1 st2 ∧ ∃ d, st2.data e = some d ∧ eo ≤ d.length := by
    rw [← hst2]
    unfold grabRest
    simp only
    generalize hst3 : (if a = 1 ∧ (o : Int) + (n : Int) > (((st1.data 1).getD []).length : Int) then st1.grab f 1 none else st1) = st3
    have hg3 : Loose f st1 st3 := by
      rw [← hst3]
      split
      · exact grab_loose hg1.begun 1
      · exact Loose.refl hg1.begun
    obtain ⟨d, hd⟩ := Option.isSome_iff_exists.mp (hg3.some e (hd1' e hae (Nat.le_refl _)).1)
    rw [hd]
    simp only [Option.getD_some]
    split
    · exact ⟨hg3.trans (grab_loose hg3.begun e), se, grab_data hse, hoe⟩
    · exact ⟨hg3, d, hd, by omega⟩
  obtain ⟨hg2, de, hde, hlde⟩ := hg2
  have hmark : markerMagic f st2 = st2 := by unfold markerMagic; simp [hrar]
  have hhead : headerMagic f st2 a (n : Int) (o : Int) = (st2, (o : Int)) := by unfold headerMagic; simp [hrar]
  have hpos : st2.pos = st.pos := hg2.pos.trans hg1.pos
  have hgive := giveData_exact (st := st2) he (n := n) (e := e) (endOff := eo) (s' := se) hsa hoa (hpos.trans hpa)
    (by rw [hpos]; exact hle) hse hoe (by rw [hpos]; exact hpe) (by
      intro i h1 h2
      by_cases hie : i = e
      · subst hie
        obtain ⟨s, hs, hp⟩ := hg2.begun _ _ hde
        refine ⟨s, de, hs, hde, hp, ?_⟩
        rw [hpos]
        omega
      · obtain ⟨s, hs⟩ := hseg i h1 h2
        have := hmid i h1 (by omega)
        rw [hs] at this
        exact ⟨s, s, hs, hg2.full _ _ hs this, List.prefix_refl _, by omega⟩) hae
  refine ⟨{ st2 with pos := st.pos + n, didSeek := false }, ?_, rfl, ?_, ?_, hg2.begun⟩
  · unfold NState.read
    simp only [hact, if_true, ok_bind]
    rw [if_neg (by omega), hwa, ok_bind]
    simp only [show st.extra a = 0 by unfold NState.extra; rw [hshift], hn, hwe, ok_bind, Int.add_zero]
    rw [hf1, ok_bind]
    simp only [hend, hst2, hmark, hhead]
    rw [hgive, hpos]
  · exact hg2.active.trans (hg1.active.trans hact)
  · intro i
    exact (congrFun hg2.shift i).trans ((congrFun hg1.shift i).trans (hshift i))

theorem first_loose {f : PostedFile} (he : EvenParts f) {st : NState} (h : Begun f st) (lines : Option Nat) (hd : st.data 1 = none ∨ lines = none) :
    ∃ st', st.first f lines = .ok st' ∧ st'.active = true ∧ st'.pos = st.pos ∧ st'.shift = st.shift ∧ Begun f st' := by
  have hs : ∃ s, f.seg? 1 = some s := by
    rw [seg_succ f 0]
    exact ⟨_, List.getElem?_eq_getElem (List.length_pos_iff.mpr he.1)⟩
  obtain ⟨s, hs⟩ := hs
  obtain ⟨h1, h2, h3⟩ := grab_same (f := f) (st := st) 1 lines
  refine ⟨{ st.grab f 1 lines with active := true }, by unfold NState.first; rw [hs], rfl, h1, h3, grab_begun h 1 lines⟩

theorem giveData_data {f : PostedFile} {st st' : NState} {a o : Nat} {off size : Int} {d : Bytes} (h : giveData f st a o off size = .ok (d, st')) :
    st'.data = st.data ∧ st'.shift = st.shift ∧ st'.active = st.active := by
  unfold giveData at h
  simp only at h
  split at h
  · cases h; exact ⟨rfl, rfl, rfl⟩
  · rw [bind_eq_ok] at h
    obtain ⟨⟨rest, moved⟩, _, h⟩ := h
    simp only at h
    split at h
    · cases h
    · cases h; exact ⟨rfl, rfl, rfl⟩

theorem read_begun {f : PostedFile} (he : EvenParts f) (hrar : f.isRar = false) {st st' : NState} (h : Begun f st) (hshift : ∀ i, st.shift i = none)
    {size : Option Nat} {d : Bytes} (hr : st.read f size = .ok (d, st')) : Begun f st' ∧ (∀ i, st'.shift i = none) ∧ st'.active = true := by
  unfold NState.read at hr
  rw [bind_eq_ok] at hr
  obtain ⟨st0, h0, hr⟩ := hr
  have hst0 : Begun f st0 ∧ (∀ i, st0.shift i = none) ∧ st0.active = true := by
    split at h0
    · rename_i ha; cases h0; exact ⟨h, hshift, ha⟩
    · simp only [hrar, Bool.and_false, Bool.false_eq_true, if_false] at h0
      obtain ⟨st1, h1, h2, _, h4, h5⟩ := first_loose he h none (Or.inr rfl)
      rw [h1] at h0; cases h0
      exact ⟨h5, fun i => by rw [h4]; exact hshift i, h2⟩
  obtain ⟨b0, s0, a0⟩ := hst0
  split at hr
  · cases hr; exact ⟨b0, s0, a0⟩
  · rw [bind_eq_ok] at hr
    obtain ⟨⟨a, o⟩, hwa, hr⟩ := hr
    simp only at hr
    rw [bind_eq_ok] at hr
    obtain ⟨⟨e, eo⟩, hwe, hr⟩ := hr
    simp only at hr
    rw [bind_eq_ok] at hr
    obtain ⟨⟨st1, off⟩, hf, hr⟩ := hr
    simp only at hr
    have hle : st0.pos + st0.asked f size ≤ f.size := by
      unfold PostedFile.which at hwe
      split at hwe
      · cases hwe
      · omega
    obtain ⟨a', o', sa, hwa', hsa, _, _, _⟩ := which_ok he (show st0.pos ≤ f.size by omega)
    obtain ⟨e', eo', se, hwe', hse, _, _, _⟩ := which_ok he hle
    rw [hwa] at hwa'; cases hwa'
    rw [hwe] at hwe'; cases hwe'
    obtain ⟨ha1, _, _⟩ := seg_pos hsa
    obtain ⟨_, hen, _⟩ := seg_pos hse
    obtain ⟨stx, hf1, hg1, _⟩ := fetchAll_loose (a := a) (e := e) (endOff := eo) (toEnd := size.isNone) (off := (o : Int) + st0.extra a) he hrar
      ((List.range (e + 1 - a)).map fun k => a + k) b0 (by
        intro i hi
        simp only [List.mem_map, List.mem_range] at hi
        obtain ⟨k, hk, rfl⟩ := hi
        rw [show a + k = (a + k - 1) + 1 by omega, seg_succ]
        exact ⟨_, List.getElem?_eq_getElem (by omega)⟩)
    rw [hf1] at hf; cases hf
    rw [show endBlockMagic f st1 a ((o : Int) + st0.extra a) = (st1, (o : Int) + st0.extra a) by unfold endBlockMagic; simp [hrar]] at hr
    simp only at hr
    generalize hst2 : grabRest f st1 a o ((o : Int) + st0.extra a) (st0.asked f size : Int) e eo = st2 at hr
    have hg2 : Loose f st1 st2 := by
      rw [← hst2]
      unfold grabRest
      simp only
      split <;> split
      · exact (grab_loose hg1.begun 1).trans (grab_loose (grab_loose hg1.begun 1).begun e)
      · exact grab_loose hg1.begun 1
      · exact grab_loose hg1.begun e
      · exact Loose.refl hg1.begun
    rw [show markerMagic f st2 = st2 by unfold markerMagic; simp [hrar]] at hr
    rw [show headerMagic f st2 a (st0.asked f size : Int) ((o : Int) + st0.extra a) = (st2, (o : Int) + st0.extra a) by unfold headerMagic; simp [hrar]] at hr
    simp only at hr
    obtain ⟨k1, k2, k3⟩ := giveData_data hr
    refine ⟨?_, ?_, ?_⟩
    · intro i x hx; rw [k1] at hx; exact hg2.begun i x hx
    · intro i; rw [k2, hg2.shift, hg1.shift]; exact s0 i
    · rw [k3, hg2.active, hg1.active]; exact a0

theorem seek_begun {f : PostedFile} (he : EvenParts f) (hrar : f.isRar = false) {st st' : NState} (h : Begun f st) (hshift : ∀ i, st.shift i = none)
    {offset : Int} {origin : Nat} (hr : st.seek f offset origin = .ok st') : Begun f st' ∧ (∀ i, st'.shift i = none) := by
  unfold NState.seek at hr
  split at hr
  · cases hr; exact ⟨h, hshift⟩
  · rw [bind_eq_ok] at hr
    obtain ⟨st0, h0, hr⟩ := hr
    have hst0 : Begun f st0 ∧ (∀ i, st0.shift i = none) := by
      split at h0
      · cases h0; exact ⟨h, hshift⟩
      · simp only [hrar, Bool.false_eq_true, if_false] at h0
        obtain ⟨st1, h1, h2, _, h4, h5⟩ := first_loose he h none (Or.inr rfl)
        rw [h1] at h0; cases h0
        exact ⟨h5, fun i => by rw [h4]; exact hshift i⟩
    simp only at hr
    generalize (if origin = 0 then offset else if origin = 1 then (st0.pos : Int) + offset else if origin = 2 then (f.size : Int) + offset else 0) = dest at hr
    split at hr
    · cases hr
    · split at hr
      · cases hr
      · cases hr; exact hst0

theorem after_begun {f : PostedFile} (he : EvenParts f) (hrar : f.isRar = false) : ∀ (ops : List FileUse) {st st' : NState}, Begun f st → (∀ i, st.shift i = none) →
    handleAfter f st ops = .ok st' → Begun f st' ∧ (∀ i, st'.shift i = none) := by
  intro ops
  induction ops with
  | nil => intro st st' h hs hr; cases hr; exact ⟨h, hs⟩
  | cons u t ih =>
    intro st st' h hs hr
    unfold handleAfter at hr
    rw [bind_eq_ok] at hr
    obtain ⟨⟨r, st1⟩, hu, hr⟩ := hr
    simp only at hr
    have h1 : Begun f st1 ∧ (∀ i, st1.shift i = none) := by
      cases u with
      | seek offset origin =>
        unfold useHandle at hu
        rw [bind_eq_ok] at hu
        obtain ⟨st2, hk, hu⟩ := hu
        cases hu
        exact seek_begun he hrar h hs hk
      | read size =>
        unfold useHandle at hu
        rw [bind_eq_ok] at hu
        obtain ⟨⟨d, st2⟩, hk, hu⟩ := hu
        cases hu
        obtain ⟨k1, k2, _⟩ := read_begun he hrar h hs hk
        exact ⟨k1, k2⟩
    exact ih h1.1 h1.2 hr

/-! ### The handle and a plain file -/

/-- The handle is where the plain file is, and what it has is complete. -/
structure Follows (f : PostedFile) (st : NState) (p : PlainFile) : Prop where
  pos : st.pos = p.pos
  le : p.pos ≤ f.size
  full : Complete f st
  shift : ∀ i, st.shift i = none
  fresh : st.active = false → st.pos = 0
  sought : st.didSeek = true → p.sought = true
  ended : f.isRar = true → st.endMagic = p.ended
  part : st.active = true → p.sought = false → ∀ a o, f.which st.pos = .ok (a, o) → (st.data a).isSome = true

theorem size_pos {f : PostedFile} (he : EvenParts f) : 0 < f.size := by
  have hn := List.length_pos_iff.mpr he.1
  have h := size_split he (i := 0) (s := f.segs[0]) (List.getElem?_eq_getElem hn)
  have := (he.2 0 f.segs[0] (List.getElem?_eq_getElem hn)).1
  omega

theorem which_zero {f : PostedFile} (he : EvenParts f) {a o : Nat} (h : f.which 0 = .ok (a, o)) : a = 1 := by
  obtain ⟨a', o', s, hw, _, _, hp, h0⟩ := which_ok he (Nat.zero_le _)
  rw [hw] at h
  cases h
  by_cases hc : a = 1
  · exact hc
  · have := h0 hc; omega

theorem first_follows {f : PostedFile} (he : EvenParts f) (hfew : AlwaysFull f) {st : NState} {p : PlainFile} (h : Follows f st p) (hact : st.active = false)
    (b : Bool) (hb : b = true → f.isRar = true) :
    ∃ st', st.first f (if b = true then f.few else none) = .ok st' ∧ st'.active = true ∧ Follows f st' p := by
  have hlines : (if b = true then f.few else none) = none := by
    rcases hfew with hf | ⟨hr, _⟩
    · simp [hf]
    · cases b with
      | false => rfl
      | true => rw [hb rfl] at hr; cases hr
  rw [hlines]
  have hs : ∃ s, f.seg? 1 = some s := by
    rw [seg_succ f 0]
    exact ⟨_, List.getElem?_eq_getElem (List.length_pos_iff.mpr he.1)⟩
  obtain ⟨s, hs⟩ := hs
  have hg := grab_grown h.full 1
  refine ⟨{ st.grab f 1 none with active := true }, by unfold NState.first; rw [hs], rfl, ?_⟩
  refine ⟨hg.pos.trans h.pos, h.le, hg.full, fun i => (congrFun hg.shift i).trans (h.shift i), fun hc => (by cases hc), ?_, ?_, ?_⟩
  · intro hd; exact h.sought (hg.didSeek.symm.trans hd)
  · intro hr; exact hg.endMagic.trans (h.ended hr)
  · intro _ _ a o hw
    have hw' : f.which st.pos = .ok (a, o) := by rw [← hg.pos]; exact hw
    rw [h.fresh hact] at hw'
    have := which_zero he hw'
    subst this
    rw [show ({ st.grab f 1 none with active := true } : NState).data 1 = (st.grab f 1 none).data 1 from rfl, grab_data hs]; rfl

theorem seek_follows {f : PostedFile} (he : EvenParts f) (hfew : AlwaysFull f) {st : NState} {p : PlainFile} (h : Follows f st p) (offset : Int) (origin : Nat) :
    match p.use (whole f) (.seek offset origin) with
    | .ok (r, p') => ∃ st', useHandle f st (.seek offset origin) = .ok (r, st') ∧ Follows f st' p'
    | .error e => useHandle f st (.seek offset origin) = .error e := by
  have hlen : (whole f).length = f.size := rfl
  unfold useHandle
  dsimp only
  unfold NState.seek
  by_cases hearly : st.active = false ∧ offset = 0 ∧ (origin = 0 ∨ (origin = 1 ∧ st.pos = 0))
  · obtain ⟨hact, h0, ho⟩ := hearly
    have hp0 : p.pos = 0 := by rw [← h.pos]; exact h.fresh hact
    have hdest : (if origin = 0 then offset else if origin = 1 then (p.pos : Int) + offset else if origin = 2 then ((whole f).length : Int) + offset else 0) = 0 := by
      rcases ho with ho | ⟨ho, _⟩
      · simp [ho, h0]
      · simp [ho, h0, hp0]
    unfold PlainFile.use
    simp only [hdest]
    rw [if_neg (by omega), if_pos ⟨hact, h0, ho⟩, ok_bind]
    refine ⟨_, rfl, ⟨rfl, Nat.zero_le _, h.full, h.shift, fun _ => rfl, fun _ => rfl, h.ended, ?_⟩⟩
    intro hc
    exact absurd (show st.active = true from hc) (by rw [hact]; simp)
  · rw [if_neg hearly]
    have hst : ∃ st1, (if st.active = true then .ok st else st.first f (if f.isRar = true then f.few else none) : Res NState) = .ok st1 ∧ st1.active = true ∧ Follows f st1 p := by
      cases ha : st.active with
      | true => exact ⟨st, by simp, ha, h⟩
      | false =>
        obtain ⟨st1, h1, h2, h3⟩ := first_follows he hfew h ha f.isRar (fun x => x)
        exact ⟨st1, by simpa using h1, h2, h3⟩
    obtain ⟨st1, h1, hact, hf⟩ := hst
    rw [h1, ok_bind]
    unfold PlainFile.use
    simp only [hlen, hf.pos]
    generalize (if origin = 0 then offset else if origin = 1 then (p.pos : Int) + offset else if origin = 2 then (f.size : Int) + offset else 0) = dest
    by_cases hneg : dest < 0
    · simp only [hneg, true_or, if_true]; rfl
    · by_cases hbig : dest > (f.size : Int)
      · simp only [hneg, hbig, or_true, if_true, if_false]; rfl
      · simp only [hneg, hbig, or_self, if_false]
        refine ⟨_, rfl, ⟨rfl, ?_, hf.full, hf.shift, ?_, fun _ => rfl, hf.ended, ?_⟩⟩
        · show dest.toNat ≤ f.size
          omega
        · intro hc
          exact absurd (show st1.active = false from hc) (by rw [hact]; simp)
        · intro _ hc; cases hc

theorem read_follows {f : PostedFile} (he : EvenParts f) (hfew : AlwaysFull f) {st : NState} {p : PlainFile} (h : Follows f st p) (size : Option Nat)
    (hrar : f.isRar = true → 7 ≤ f.firstSize ∧ (whole f).head? = some 0x52 ∧
      (p.pos < (whole f).length → (p.sought = true ∨ (nearEnd (whole f).length p.pos = true ∧ p.ended = false)) → BlockAt (whole f) p.pos)) :
    match p.use (whole f) (.read size) with
    | .ok (r, p') => ∃ st', useHandle f st (.read size) = .ok (r, st') ∧ Follows f st' p'
    | .error e => useHandle f st (.read size) = .error e := by
  have hlen : (whole f).length = f.size := rfl
  rw [hlen] at hrar
  have hst : ∃ st1, (if st.active = true then .ok st else st.first f (if (size.isSome && f.isRar) = true then f.few else none) : Res NState) = .ok st1 ∧
      st1.active = true ∧ Follows f st1 p := by
    cases ha : st.active with
    | true => exact ⟨st, by simp, ha, h⟩
    | false =>
      obtain ⟨st1, h1, h2, h3⟩ := first_follows he hfew h ha (size.isSome && f.isRar) (by simp)
      exact ⟨st1, by simpa using h1, h2, h3⟩
  obtain ⟨st1, h1, hact, hf⟩ := hst
  have hread : st.read f size = st1.read f size := by
    unfold NState.read
    rw [h1, ok_bind]
    simp only [hact, if_true, ok_bind]
  unfold useHandle
  dsimp only
  rw [hread]
  unfold PlainFile.use
  simp only [hlen]
  by_cases hend : p.pos = f.size
  · rw [if_pos hend]
    simp only
    refine ⟨st1, ?_, hf⟩
    unfold NState.read
    simp only [hact, if_true, ok_bind, hf.pos, hend]
    rfl
  · rw [if_neg hend]
    have hlt : st1.pos < f.size := by rw [hf.pos]; have := hf.le; omega
    have hmain := read_full he hfew hf.full hact hf.shift hlt hf.sought (hf.part hact) (fun hr => by
      obtain ⟨k1, k2, k3⟩ := hrar hr
      rw [hf.pos, hf.ended hr]
      exact ⟨k1, k2, k3⟩) size rfl
    have hasked : st1.asked f size = p.amount (whole f) size := by
      cases size with
      | some n => rfl
      | none => show f.size - st1.pos = f.size - p.pos; rw [hf.pos]
    rw [hf.pos, hasked] at hmain
    generalize p.amount (whole f) size = n at hmain ⊢
    by_cases hle : p.pos + n ≤ f.size
    · rw [if_pos hle] at hmain
      rw [if_neg (by omega)]
      obtain ⟨st', r1, r2, r3, r4, r5, r6, r7, r8⟩ := hmain
      rw [r1]
      refine ⟨st', rfl, ⟨r2, hle, r7, r6, fun hc => ?_, fun hc => ?_, fun hr => ?_, fun _ _ => ?_⟩⟩
      · rw [r3] at hc; cases hc
      · rw [r4] at hc; cases hc
      · rw [r5, hf.ended hr, hr]; simp
      · rw [r2]; exact r8
    · rw [if_neg hle] at hmain
      rw [if_pos (by omega), hmain]
      rfl

end Rescene
