import Verif.Spec.Packed
import Verif.Lemmas.Volume
import Verif.Props.ReconstructExample
/-
C07: the SRR does not depend on packed data.
-/
namespace Rescene.Props
open Rescene Rescene.Spec

theorem readAt_getElem? (data : Bytes) (p n i : Nat) : (readAt data p n)[i]? = if i < n then data[p + i]? else none := by
  unfold readAt
  rw [List.getElem?_take]
  split <;> simp

theorem readAt_length (data : Bytes) (p n : Nat) : (readAt data p n).length = min n (data.length - p) := by
  unfold readAt; simp

/-- Reading in a part on which two files of the same length agree. -/
theorem readAt_agree {data data' : Bytes} {a z p n : Nat} (hl : data.length = data'.length)
    (h : ∀ i, a ≤ i → i < z → data[i]? = data'[i]?) (hp : a ≤ p) (hz : p + (readAt data p n).length ≤ z) :
    readAt data' p n = readAt data p n := by
  apply List.ext_getElem?
  intro i
  rw [readAt_getElem?, readAt_getElem?]
  split
  · rename_i hi
    rw [readAt_length] at hz
    by_cases hd : p + i < data.length
    · exact (h (p + i) (by omega) (by omega)).symm
    · rw [List.getElem?_eq_none (by omega), List.getElem?_eq_none (by omega)]
  · rfl

theorem readBody_agree {data data' : Bytes} {pos : Nat} {btype flags hsize : Nat} {rr rr' : Option Bool} {b : Block} {cur : Nat}
    (h7 : 7 < hsize) (hlen : pos + hsize ≤ data.length)
    (ht : unpackAt 1 (readAt data pos 7) 2 = .ok btype) (hf : unpackAt 2 (readAt data pos 7) 3 = .ok flags)
    (hs : unpackAt 2 (readAt data pos 7) 5 = .ok hsize)
    (hl : data.length = data'.length) (hag : ∀ i, pos ≤ i → i < pos + b.raw.length → data[i]? = data'[i]?)
    (h : readBody .rar data pos (readAt data pos 7) btype flags hsize rr = .ok (b, cur, rr')) :
    readBody .rar data' pos (readAt data pos 7) btype flags hsize rr = .ok (b, cur, rr') := by
  obtain ⟨g1, g2, g3, g4, g5, _⟩ := readBody_ok h7 hlen ht hf hs h
  have hr := g5.2.1
  have hbuf : readAt data' (pos + 7) (hsize - 7) = readAt data (pos + 7) (hsize - 7) :=
    readAt_agree hl hag (by omega) (by rw [readAt_length]; omega)
  have hbl : (readAt data pos 7 ++ readAt data (pos + 7) (hsize - 7)).length = hsize := by
    rw [List.length_append, readAt_length, readAt_length]; omega
  unfold readBody at h ⊢
  rw [hbuf]
  dsimp only at h ⊢
  rw [bind_eq_ok] at h ⊢
  obtain ⟨add, h1, h⟩ := h
  refine ⟨add, h1, ?_⟩
  rw [bind_eq_ok] at h ⊢
  obtain ⟨isRec, h2, h⟩ := h
  refine ⟨isRec, h2, ?_⟩
  rw [bind_eq_ok] at h ⊢
  obtain ⟨⟨rr2, sk⟩, h3, h⟩ := h
  refine ⟨(rr2, sk), h3, ?_⟩
  dsimp only at h ⊢
  split at h
  · rename_i c; rw [if_pos c]; exact h
  · rename_i c
    rw [if_neg c]
    split at h
    · rename_i c2
      rw [if_pos c2]
      rw [bind_eq_ok] at h
      obtain ⟨b', hb', h⟩ := h
      have hraw : b'.raw = _ := (mkBlock_ok_iff.mp hb').2.2.2.2.2.1
      simp only [pure_eq_ok, Except.ok.injEq, Prod.mk.injEq] at h
      have hbb : b' = b := h.1
      have hsk : sk = 0 := by simp [recStep] at h3; exact h3.2.symm
      have hex : readAt data' (pos + hsize + sk) add = readAt data (pos + hsize + sk) add := by
        apply readAt_agree hl hag (by omega)
        rw [← hbb, hraw, List.length_append, hbl, hsk]
        omega
      rw [hex, hb', ok_bind]
      simp only [pure_eq_ok, Except.ok.injEq, Prod.mk.injEq]
      exact h
    · rename_i c2
      rw [if_neg c2]
      exact h

/-- Where the bytes of a block are that are read. -/
theorem readBlock_agree {data data' : Bytes} {st st' : RState} {b : Block} (hinv : EndOk .rar data st) (hl : data.length = data'.length)
    (h : readBlock .rar data st = .ok (some (b, st')))
    (hag : ∀ i, st.pos ≤ i → i < st.pos + b.raw.length → data[i]? = data'[i]?) :
    readBlock .rar data' st = .ok (some (b, st')) := by
  obtain ⟨h1, h2, h3, h4, h5⟩ := readBlock_some hinv h
  have hdrop : IsTail data b → data'.drop st.pos = data.drop st.pos := by
    rintro ⟨t1, t2, t3, t4⟩
    apply List.ext_getElem?
    intro i
    rw [List.getElem?_drop, List.getElem?_drop]
    by_cases hd : st.pos + i < data.length
    · exact (hag _ (by omega) (by omega)).symm
    · rw [List.getElem?_eq_none (by omega), List.getElem?_eq_none (by omega)]
  unfold readBlock at h ⊢
  rw [← hl]
  by_cases c0 : st.pos = data.length
  · rw [if_pos c0] at h; simp at h
  rw [if_neg c0] at h ⊢
  by_cases c1 : st.pos + 7 > data.length
  · rw [if_pos c1] at h ⊢
    by_cases c2 : st.endSeen = true ∧ Mode.rar = .rar
    · rw [if_pos c2] at h ⊢
      have ht : IsTail data b := by
        rcases h5 with ⟨f1, _⟩ | ⟨_, t1, _⟩
        · obtain ⟨f11, f12, f13, _⟩ := f1; omega
        · exact t1
      dsimp only at h ⊢
      rw [hdrop ht]; exact h
    · rw [if_neg c2] at h; simp at h
  rw [if_neg c1] at h ⊢
  have hraw7 : 7 ≤ b.raw.length := by
    rcases h5 with ⟨f1, _⟩ | ⟨_, t1, _⟩
    · exact Nat.le_trans f1.1 f1.2.1
    · rw [t1.2.2.2]; omega
  have hhdr : readAt data' st.pos 7 = readAt data st.pos 7 := readAt_agree hl hag (Nat.le_refl _) (by rw [readAt_length]; omega)
  dsimp only at h ⊢
  rw [hhdr]
  rw [bind_eq_ok] at h ⊢
  obtain ⟨btype, e1, h⟩ := h
  refine ⟨btype, e1, ?_⟩
  rw [bind_eq_ok] at h ⊢
  obtain ⟨flags, e2, h⟩ := h
  refine ⟨flags, e2, ?_⟩
  rw [bind_eq_ok] at h ⊢
  obtain ⟨hsize, e3, h⟩ := h
  refine ⟨hsize, e3, ?_⟩
  by_cases c2 : st.endSeen = true ∧ Mode.rar = .rar
  · rw [if_pos c2] at h ⊢
    rw [bind_eq_ok] at h
    obtain ⟨b', hb', h⟩ := h
    simp only [pure_eq_ok, Except.ok.injEq, Option.some.injEq, Prod.mk.injEq] at h
    have hbb : b' = b := h.1
    have hrl : st.pos + b.raw.length ≥ data.length := by
      unfold paddingBlock at hb'
      rw [bind_eq_ok] at hb'
      obtain ⟨raw, hr, hb'⟩ := hb'
      simp only [pure_eq_ok, Except.ok.injEq] at hb'
      rw [← hbb, ← hb']
      show st.pos + raw.length ≥ _
      have hrl : raw.length ≥ (readAt data st.pos 7 ++ data.drop (st.pos + 7)).length := by
        have := (mkPadding_ok_iff.mp hr).2
        rw [this, List.length_append, List.length_append]
        omega
      rw [List.length_append, readAt_length, List.length_drop] at hrl
      omega
    have hd7 : data'.drop (st.pos + 7) = data.drop (st.pos + 7) := by
      apply List.ext_getElem?
      intro i
      rw [List.getElem?_drop, List.getElem?_drop]
      by_cases hd : st.pos + 7 + i < data.length
      · exact (hag _ (by omega) (by omega)).symm
      · rw [List.getElem?_eq_none (by omega), List.getElem?_eq_none (by omega)]
    rw [hd7, hb', ok_bind]
    simp only [pure_eq_ok, Except.ok.injEq, Option.some.injEq, Prod.mk.injEq]
    exact h
  rw [if_neg c2] at h ⊢
  by_cases c3 : hsize < 7 ∨ st.pos + hsize > data.length
  · rw [if_pos c3] at h; simp at h
  rw [if_neg c3] at h ⊢
  by_cases c4 : hsize = 7
  · rw [if_pos c4] at h ⊢; exact h
  rw [if_neg c4] at h ⊢
  rw [bind_eq_ok] at h ⊢
  obtain ⟨⟨b', cur, rr⟩, hb, h⟩ := h
  simp only [pure_eq_ok, Except.ok.injEq, Option.some.injEq, Prod.mk.injEq] at h
  have hbb : b' = b := h.1
  refine ⟨(b', cur, rr), ?_, ?_⟩
  · exact readBody_agree (by omega) (by omega) e1 e2 e3 hl (by rw [hbb]; exact hag) hb
  · simp only [pure_eq_ok, Except.ok.injEq, Option.some.injEq, Prod.mk.injEq]
    exact h

theorem readLoop_agree {data data' : Bytes} (hl : data.length = data'.length) {fuel : Nat} : ∀ {st : RState} {tr : List (Block × Nat)},
    EndOk .rar data st → readLoop .rar data fuel st = .ok tr →
    (∀ x ∈ tr, ∀ i, x.1.pos ≤ i → i < x.1.pos + x.1.raw.length → data[i]? = data'[i]?) →
    readLoop .rar data' fuel st = .ok tr := by
  induction fuel with
  | zero => intro st tr _ h; simp [readLoop] at h
  | succ fuel ih =>
    intro st tr hinv h hag
    unfold readLoop at h ⊢
    rw [bind_eq_ok] at h
    obtain ⟨o, ho, h⟩ := h
    cases o with
    | none =>
      have hp := readBlock_none ho
      have : readBlock .rar data' st = .ok none := by
        unfold readBlock
        rw [if_pos (by omega)]
        rfl
      rw [this]
      exact h
    | some x =>
      obtain ⟨b, st'⟩ := x
      simp only [bind_eq_ok, pure_eq_ok, Except.ok.injEq] at h
      obtain ⟨t, ht, h⟩ := h
      subst h
      obtain ⟨h1, h2, h3, h4, h5⟩ := readBlock_some hinv ho
      have hb := hag (b, st'.pos) (by simp)
      dsimp only at hb
      rw [h1] at hb
      rw [readBlock_agree hinv hl ho hb, ok_bind]
      dsimp only
      rw [ih h4 ht (fun x hx => hag x (List.mem_cons_of_mem _ hx))]
      rfl

theorem volTiles_mem {data : Bytes} {tr : List (Block × Nat)} : ∀ {a : Nat}, VolTiles data tr a →
    (∀ x ∈ tr, a ≤ x.1.pos ∧ x.1.pos < x.2) := by
  induction tr with
  | nil => intro a _ x hx; simp at hx
  | cons y t ih =>
    intro a hv x hx
    obtain ⟨b, e⟩ := y
    obtain ⟨h1, h2, h3, h4, h5⟩ := hv
    rcases List.mem_cons.mp hx with rfl | hx
    · dsimp only; omega
    · have := ih h5 x hx; omega

/-- Headers and packed data do not overlap. -/
theorem volTiles_disjoint {data : Bytes} {tr : List (Block × Nat)} : ∀ {a : Nat}, VolTiles data tr a →
    ∀ x ∈ tr, ∀ y ∈ tr, ∀ i, x.1.pos ≤ i → i < x.1.pos + x.1.raw.length → i < data.length →
      y.1.pos + y.1.raw.length ≤ i → i < y.2 → False := by
  induction tr with
  | nil => intro a _ x hx; simp at hx
  | cons z t ih =>
    intro a hv x hx y hy i i1 i2 i3 i4 i5
    obtain ⟨b, e⟩ := z
    have hv0 := hv
    obtain ⟨h1, h2, h3, h4, h5⟩ := hv
    have hm := volTiles_mem h5
    rcases List.mem_cons.mp hx with rfl | hx'
    · rcases List.mem_cons.mp hy with rfl | hy'
      · omega
      · have hy2 := hm y hy'
        dsimp only at i1 i2
        rcases h4 with ⟨_, _, _, _, _, t6⟩ | ⟨_, _, f3, _⟩
        · rw [t6] at hy'; simp at hy'
        · have : y.1.pos + y.1.raw.length ≥ e := by omega
          omega
    · rcases List.mem_cons.mp hy with rfl | hy'
      · have := hm x hx'
        dsimp only at i4 i5
        omega
      · exact ih h5 x hx' y hy' i i1 i2 i3 i4 i5

theorem loop_raw7 {data : Bytes} {fuel : Nat} : ∀ {st : RState} {tr : List (Block × Nat)},
    EndOk .rar data st → readLoop .rar data fuel st = .ok tr → ∀ x ∈ tr, 7 ≤ x.1.raw.length := by
  induction fuel with
  | zero => intro st tr _ h; simp [readLoop] at h
  | succ fuel ih =>
    intro st tr hinv h
    unfold readLoop at h
    rw [bind_eq_ok] at h
    obtain ⟨o, ho, h⟩ := h
    cases o with
    | none => simp only [pure_eq_ok, Except.ok.injEq] at h; subst h; simp
    | some x =>
      obtain ⟨b, st'⟩ := x
      simp only [bind_eq_ok, pure_eq_ok, Except.ok.injEq] at h
      obtain ⟨t, ht, h⟩ := h
      subst h
      obtain ⟨h1, h2, h3, h4, h5⟩ := readBlock_some hinv ho
      intro x hx
      rcases List.mem_cons.mp hx with rfl | hx
      · rcases h5 with ⟨f1, _⟩ | ⟨_, t1, _⟩
        · exact Nat.le_trans f1.1 f1.2.1
        · show 7 ≤ b.raw.length; rw [t1.2.2.2]; omega
      · exact ih h4 ht x hx

theorem marker_byte {data : Bytes} (hm : openReader data = .ok .rar) : ∃ c, data[2]? = some c ∧ c.toNat = 0x72 := by
  unfold openReader at hm
  split at hm
  · simp at hm
  · split at hm
    · simp at hm
    · split at hm
      · simp at hm
      · rename_i c hc
        split at hm
        · exact ⟨c, hc, by assumption⟩
        · split at hm <;> simp at hm

theorem first_type {data : Bytes} {tr : List (Block × Nat)} (hm : openReader data = .ok .rar) (h : readTrace data = .ok tr) :
    ∀ x ∈ tr, x.1.pos = 0 → x.1.btype = 0x72 := by
  have hv := volTiles_of_read hm h
  obtain ⟨c, c1, c2⟩ := marker_byte hm
  unfold readTrace at h
  rw [hm, ok_bind] at h
  unfold readLoop at h
  rw [bind_eq_ok] at h
  obtain ⟨o, ho, h⟩ := h
  cases o with
  | none => simp only [pure_eq_ok, Except.ok.injEq] at h; subst h; simp
  | some x =>
    obtain ⟨b, st'⟩ := x
    simp only [bind_eq_ok, pure_eq_ok, Except.ok.injEq] at h
    obtain ⟨t, ht, h⟩ := h
    subst h
    obtain ⟨h1, h2, h3, h4, h5⟩ := readBlock_some endOk_init ho
    intro x hx h0
    rcases List.mem_cons.mp hx with rfl | hx
    · rcases h5 with ⟨f1, _, _, _, _, f6, _⟩ | ⟨_, _, _, _, t5, _⟩
      · show b.btype = _
        rw [← f6, f1.2.2.2, h1]
        have hl : 7 ≤ b.raw.length := Nat.le_trans f1.1 f1.2.1
        have : slice (readAt data (RState.init).pos b.raw.length) 2 3 = [c] := by
          apply List.ext_getElem?
          intro i
          unfold slice
          rw [List.getElem?_drop, List.getElem?_take, readAt_getElem?]
          show (if 2 + i < 3 then (if 2 + i < b.raw.length then data[0 + (2 + i)]? else none) else none) = _
          cases i with
          | zero => rw [if_pos (by omega), if_pos (by omega)]; simpa using c1
          | succ i => rw [if_neg (by omega)]; simp
        rw [this]
        simp [ofLe, c2]
      · simp [RState.init] at t5
    · have := volTiles_mem hv.2.2.2.2 x hx
      have h3' : 0 < st'.pos := h3
      omega

/-- The blocks read are the same. -/
theorem read_packed_independent {data data' : Bytes} (hm : openReader data = .ok .rar) (h : SameButPacked data data') :
    openReader data' = .ok .rar ∧ readTrace data' = readTrace data := by
  obtain ⟨hl, hd⟩ := h
  cases htr : readTrace data with
  | error e =>
    have : data = data' := by
      apply List.ext_getElem?
      intro i
      apply Classical.byContradiction
      intro hne
      obtain ⟨tr, h1, _⟩ := hd i hne
      rw [htr] at h1; simp at h1
    subst this
    exact ⟨hm, htr⟩
  | ok tr =>
    have hv := volTiles_of_read hm htr
    have hag : ∀ x ∈ tr, ∀ i, x.1.pos ≤ i → i < x.1.pos + x.1.raw.length → data[i]? = data'[i]? := by
      intro x hx i i1 i2
      apply Classical.byContradiction
      intro hne
      obtain ⟨tr', h1, y, hy, _, y2, y3⟩ := hd i hne
      rw [htr] at h1
      simp only [Except.ok.injEq] at h1
      subst h1
      have hlt : i < data.length := by
        apply Classical.byContradiction
        intro hge
        exact hne (by rw [List.getElem?_eq_none (by omega), List.getElem?_eq_none (by omega)])
      exact volTiles_disjoint hv x hx y hy i i1 i2 hlt y2 y3
    have hfirst : ∀ i, i < 8 → data[i]? = data'[i]? := by
      intro i hi
      apply Classical.byContradiction
      intro hne
      obtain ⟨tr', h1, y, hy, y1, y2, y3⟩ := hd i hne
      rw [htr] at h1
      simp only [Except.ok.injEq] at h1
      subst h1
      have h7 : 7 ≤ y.1.raw.length := by
        have htr' := htr
        unfold readTrace at htr'
        rw [hm, ok_bind] at htr'
        exact loop_raw7 endOk_init htr' y hy
      rcases Nat.eq_zero_or_pos y.1.pos with h0 | h0
      · have ht := first_type hm htr y hy h0
        rcases y1 with y1 | y1
        · omega
        · rw [isRecovery_of_ne (by omega) (by omega)] at y1
          simp at y1
      · -- a block behind the first one begins after seven bytes
        have hfst : ∀ {tr : List (Block × Nat)}, VolTiles data tr 0 → (∀ x ∈ tr, 7 ≤ x.1.raw.length) →
            ∀ y ∈ tr, 0 < y.1.pos → 7 ≤ y.1.pos ∨ data.length ≤ y.1.pos + y.1.raw.length := by
          intro tr hv hr y hy h0
          cases tr with
          | nil => simp at hy
          | cons z t =>
            obtain ⟨b, e⟩ := z
            rcases List.mem_cons.mp hy with rfl | hy
            · have := hv.1; dsimp only at h0; omega
            · have h1 := volTiles_mem hv.2.2.2.2 y hy
              have h2 := hr (b, e) (by simp)
              rcases hv.2.2.2.1 with ⟨_, _, _, _, _, t6⟩ | ⟨_, _, f3, _⟩
              · rw [t6] at hy; simp at hy
              · dsimp only at h2; left; omega
        have hall : ∀ x ∈ tr, 7 ≤ x.1.raw.length := by
          have htr' := htr
          unfold readTrace at htr'
          rw [hm, ok_bind] at htr'
          exact loop_raw7 endOk_init htr'
        have hlt : i < data.length := by
          apply Classical.byContradiction
          intro hge
          exact hne (by rw [List.getElem?_eq_none (by omega), List.getElem?_eq_none (by omega)])
        rcases hfst hv hall y hy h0 with h | h <;> omega
    have hm' : openReader data' = .ok .rar := by
      unfold openReader at hm ⊢
      have h8 : data'.take 8 = data.take 8 := by
        apply List.ext_getElem?
        intro i
        rw [List.getElem?_take, List.getElem?_take]
        split
        · rename_i hi; exact (hfirst i hi).symm
        · rfl
      rw [← hl, h8, ← hfirst 2 (by omega)]
      exact hm
    refine ⟨hm', ?_⟩
    unfold readTrace at htr ⊢
    rw [hm, ok_bind] at htr
    rw [hm', ok_bind, ← hl]
    exact readLoop_agree hl endOk_init htr hag

theorem volumes_independent {fs fs' : FS} {compressed : Bool} (rars : List RarIn) : ∀ (oso : List (Str × Path)),
    (∀ v ∈ rars, ∃ d d', fs v.exact = some d ∧ fs' v.exact = some d' ∧ openReader d = .ok .rar ∧ SameButPacked d d') →
    createVolumes fs' compressed oso rars = createVolumes fs compressed oso rars := by
  induction rars with
  | nil => intro oso _; rfl
  | cons v t ih =>
    intro oso h
    obtain ⟨d, d', h1, h2, h3, h4⟩ := h v (by simp)
    have hr : readAll d' = readAll d := by
      unfold readAll
      rw [(read_packed_independent h3 h4).2]
    rw [createVolumes, createVolumes, h1, h2]
    dsimp only
    rw [hr]
    congr 1
    funext hdr
    congr 1
    funext blocks
    congr 1
    funext x
    rw [ih x.2 (fun w hw => h w (List.mem_cons_of_mem _ hw))]

theorem stored_independent {fs fs' : FS} (stored : List (Str × Path)) (h : ∀ x ∈ stored, fs' x.2 = fs x.2) :
    storeAll fs' stored = storeAll fs stored := by
  induction stored with
  | nil => rfl
  | cons x t ih =>
    obtain ⟨name, p⟩ := x
    rw [storeAll, storeAll, h (name, p) (by simp), ih (fun y hy => h y (List.mem_cons_of_mem _ hy))]

/-- C07: without OSO hashes, volumes that only have other packed data give the same SRR (or the
same error). -/
theorem srr_packed_independent {dig : Nat → Bool} {lower : Str → Str} {fuel : Nat} {fs fs' : FS} {app : Str}
    {stored : List (Str × Path)} {rars : List RarIn} {compressed : Bool}
    (hstored : ∀ x ∈ stored, fs' x.2 = fs x.2)
    (hvols : ∀ v ∈ rars, ∃ d d', fs v.exact = some d ∧ fs' v.exact = some d' ∧ openReader d = .ok .rar ∧ SameButPacked d d') :
    createSrr dig lower fuel fs' app stored rars compressed false = createSrr dig lower fuel fs app stored rars compressed false := by
  unfold createSrr
  rw [stored_independent stored hstored, volumes_independent rars [] hvols]
  rfl

/-- C07: with OSO hashes only these can differ: they come last, and everything before them is the
SRR without OSO hashes. -/
theorem srr_packed_only_oso {dig : Nat → Bool} {lower : Str → Str} {fuel : Nat} {fs fs' : FS} {app : Str}
    {stored : List (Str × Path)} {rars : List RarIn} {compressed : Bool} {srr srr' : Bytes}
    (hstored : ∀ x ∈ stored, fs' x.2 = fs x.2)
    (hvols : ∀ v ∈ rars, ∃ d d', fs v.exact = some d ∧ fs' v.exact = some d' ∧ openReader d = .ok .rar ∧ SameButPacked d d')
    (h : createSrr dig lower fuel fs app stored rars compressed true = .ok srr)
    (h' : createSrr dig lower fuel fs' app stored rars compressed true = .ok srr') :
    ∃ common o o', createSrr dig lower fuel fs app stored rars compressed false = .ok common ∧ srr = common ++ o ∧ srr' = common ++ o' ∧
      (∃ ps, (∀ p ∈ ps, ∃ s h n, p = Piece.oso s h n) ∧ writePieces ps = .ok o) ∧
      (∃ ps, (∀ p ∈ ps, ∃ s h n, p = Piece.oso s h n) ∧ writePieces ps = .ok o') := by
  unfold createSrr at h h' ⊢
  rw [stored_independent stored hstored, volumes_independent rars [] hvols] at h'
  simp only [bind_eq_ok, pure_eq_ok, Except.ok.injEq, if_true] at h h'
  obtain ⟨hd, h1, s, h2, x, h3, o, h4, rfl⟩ := h
  obtain ⟨hd', h1', s', h2', x', h3', o', h4', rfl⟩ := h'
  rw [h1] at h1'; rw [h2] at h2'; rw [h3] at h3'
  simp only [Except.ok.injEq] at h1' h2' h3'
  subst h1' h2' h3'
  refine ⟨hd ++ (s ++ x.1), o, o', ?_, by simp, by simp, osoPieces_pieces h4, osoPieces_pieces h4'⟩
  rw [h1, ok_bind, h2, ok_bind, h3, ok_bind]
  simp

/-- `SameButPacked`, computed. -/
def sameButPackedB (data data' : Bytes) : Bool :=
  match readTrace data with
  | .ok tr => data.length == data'.length && (List.range data.length).all fun i => data[i]? == data'[i]? ||
      tr.any fun x => (x.1.btype == 0x74 || isRecovery x.1) && decide (x.1.pos + x.1.raw.length ≤ i) && decide (i < x.2)
  | .error _ => false

theorem same_of_check {data data' : Bytes} (h : sameButPackedB data data' = true) : SameButPacked data data' := by
  unfold sameButPackedB at h
  split at h
  · rename_i tr htr
    simp only [Bool.and_eq_true, beq_iff_eq, List.all_eq_true, List.mem_range, Bool.or_eq_true, List.any_eq_true, decide_eq_true_eq] at h
    refine ⟨h.1, ?_⟩
    intro i hi
    have hlt : i < data.length := by
      apply Classical.byContradiction
      intro hge
      exact hi (by rw [List.getElem?_eq_none (by omega), List.getElem?_eq_none (by have := h.1; omega)])
    rcases h.2 i hlt with h' | ⟨x, hx, h'⟩
    · exact absurd h' hi
    · exact ⟨tr, htr, x, hx, h'.1.1, h'.1.2, h'.2⟩
  · simp at h

/-- The second volume of the example with other data. -/
def exVol2b : Bytes := exHead 1 [0xF4, 0x99, 0x0B, 0x47] [0, 9, 5] ++ [0, 0, 0x7B, 0, 0, 7, 0]

/-- Another file, the same SRR. -/
example : exVol2 ≠ exVol2b ∧
    createSrr exDig id 5 (fun _ => some exVol2b) (str "app") [] [⟨str "/a.r00", str "/a.r00", str "a.r00"⟩] false false =
      createSrr exDig id 5 (fun _ => some exVol2) (str "app") [] [⟨str "/a.r00", str "/a.r00", str "a.r00"⟩] false false ∧
    (createSrr exDig id 5 (fun _ => some exVol2) (str "app") [] [⟨str "/a.r00", str "/a.r00", str "a.r00"⟩] false false).isOk = true := by
  refine ⟨by decide +kernel, ?_, by decide +kernel⟩
  apply srr_packed_independent
  · simp
  · intro v _
    exact ⟨exVol2, exVol2b, rfl, rfl, by decide +kernel, same_of_check (by decide +kernel)⟩

end Rescene.Props
