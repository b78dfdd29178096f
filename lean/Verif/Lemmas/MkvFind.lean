import Verif.Lemmas.MkvMovie
/-
Searching for the tracks of a sample in a movie.
-/
namespace Rescene
open Spec

/-- A track of a movie that was cut: its signature, the bytes that are stripped in the movie and in
the sample, the frames of the movie with their positions before the sample, the first of the sample,
and the others; the data of the sample. -/
structure CutAt (sig mh sh D : Bytes) (A : List (Nat × Bytes)) (x : Nat × Bytes) (B : List (Nat × Bytes)) : Prop where
  sigOf : sig <+: D
  sig1 : sig ≠ []
  strip : mh = sh ∨ sh = [] ∨ (mh = [] ∧ ∀ f ∈ A ++ x :: B, sh <+: f.2)
  data : D <+: ((x :: B).map fun f => (mh ++ f.2).drop sh.length).flatten
  unlike : ∀ a b, A = a ++ b → b ≠ [] → ¬ ((b.map fun f => (mh ++ f.2).drop sh.length).flatten.take sig.length <+: sig)
  first : (mh ++ x.2).drop sh.length ≠ []
  clear : sh = [] → ∀ k, (((x :: B).take k).map fun f => (mh ++ f.2).drop sh.length).flatten.length < sig.length →
    (((x :: B).take k).map fun f => (mh ++ f.2).drop sh.length).flatten.length + mh.length ≤ sig.length
  pos : 0 < x.1

/-- A frame as it is stored in the sample. -/
def recut (mh sh f : Bytes) : Bytes := (mh ++ f).drop sh.length

/-- `sforsample` and `sformain`. -/
def ssOf (mh sh : Bytes) : Bytes := if sh ≠ mh then mh else []
def smOf (mh sh : Bytes) : Bytes := if sh ≠ mh then sh else []

theorem recut_eq {mh sh f : Bytes} (h : mh = sh ∨ sh = [] ∨ (mh = [] ∧ sh <+: f)) :
    recut mh sh f = ssOf mh sh ++ f.drop (smOf mh sh).length ∧ (smOf mh sh).length ≤ f.length ∧
      (recut mh sh f).length + (smOf mh sh).length = (ssOf mh sh).length + f.length ∧ (ssOf mh sh ≠ [] → sh = [] ∧ smOf mh sh = []) := by
  unfold recut ssOf smOf
  by_cases e : sh = mh
  · subst e
    simp
  · simp only [ne_eq, e, not_false_eq_true, if_true]
    rcases h with h | h | ⟨h, hf⟩
    · exact absurd h.symm e
    · subst h; simp
    · subst h
      have := hf.length_le
      refine ⟨rfl, this, ?_, fun h => absurd rfl h⟩
      simp
      omega

theorem pySlice_mid (a f b : Bytes) (i k : Nat) (h : i + k ≤ f.length) :
    pySlice (a ++ (f ++ b)) ((a.length + i : Nat) : Int) ((a.length + i + k : Nat) : Int) = (f.drop i).take k := by
  unfold pySlice
  dsimp only
  rw [if_neg (by omega), if_neg (by omega), Int.toNat_natCast, Int.toNat_natCast, List.drop_take,
    show a.length + i + k - (a.length + i) = k by omega, ← List.drop_drop, List.drop_left, List.drop_append,
    List.take_append]
  have : k - (f.drop i).length = 0 := by simp; omega
  rw [this]
  simp

/-- The piece of a frame that is compared. -/
theorem find_piece {mh sh f : Bytes} (h : mh = sh ∨ sh = [] ∨ (mh = [] ∧ sh <+: f)) (a b : Bytes) (k : Nat)
    (hk : (ssOf mh sh).length ≤ k) (hk2 : k ≤ (recut mh sh f).length) :
    ssOf mh sh ++ pySlice (a ++ (f ++ b)) ((a.length : Int) + (smOf mh sh).length)
      ((a.length : Int) + (smOf mh sh).length + k - (ssOf mh sh).length) = (recut mh sh f).take k := by
  obtain ⟨h1, h2, h3, _⟩ := recut_eq h
  have := pySlice_mid a f b (smOf mh sh).length (k - (ssOf mh sh).length) (by omega)
  rw [show ((a.length + (smOf mh sh).length : Nat) : Int) = (a.length : Int) + (smOf mh sh).length by omega,
    show ((a.length + (smOf mh sh).length + (k - (ssOf mh sh).length) : Nat) : Int) =
      (a.length : Int) + (smOf mh sh).length + k - (ssOf mh sh).length by omega] at this
  rw [this, h1, List.take_append, List.take_of_length_le hk]

theorem prefix_isPrefixOf (a b : Bytes) : a.isPrefixOf b = true ↔ a <+: b := List.isPrefixOf_iff_prefix

/-- What is known of a track while its frames are searched: `G` are those that were seen. -/
structure Found (sig mh sh : Bytes) (A : List (Nat × Bytes)) (x : Nat × Bytes) (len : Int) (G : List (Nat × Bytes)) (t : MkvTrack) : Prop where
  sigOf : t.sig = sig
  lenOf : t.len = len
  settings : t.settings = sh
  before : G.length ≤ A.length → t.check <+: sig ∧ t.check.length < sig.length ∧ t.matchLen = t.check.length ∧
    ∃ G1 G2, G = G1 ++ G2 ∧ t.check = (G2.map fun f => recut mh sh f.2).flatten
  after : A.length < G.length → t.offset = x.1 ∧ t.check = sig.take ((G.drop A.length).map fun f => recut mh sh f.2).flatten.length

theorem take_prefix_eq {a b : Bytes} {k : Nat} (h : a <+: b) (hk : k ≤ a.length) : a.take k = b.take k := by
  obtain ⟨c, rfl⟩ := h
  rw [List.take_append, show k - a.length = 0 by omega]
  simp

theorem findFrame_fresh {base offset frame : Int} {ss sm buff : Bytes} {t : MkvTrack} (h : t.check = []) :
    mkvFindFrame base ss sm buff t offset frame =
      if (ss ++ pySlice buff (offset + sm.length) (offset + sm.length + min (t.sig.length : Int) (frame + ss.length - sm.length) - ss.length)).isPrefixOf t.sig then
        { t with check := ss ++ pySlice buff (offset + sm.length) (offset + sm.length + min (t.sig.length : Int) (frame + ss.length - sm.length) - ss.length),
                 offset := base + offset, matchLen := min t.len (frame + ss.length - sm.length) }
      else t := by
  unfold mkvFindFrame
  have h1 : ¬ (0 < t.check.length ∧ t.check.length < t.sig.length) := by rw [h]; simp
  simp only [if_neg h1, if_pos h]

theorem findFrame_more {base offset frame : Int} {ss sm buff cb : Bytes} {t : MkvTrack} (h : 0 < t.check.length ∧ t.check.length < t.sig.length)
    (hcb : t.check ++ ss ++ pySlice buff (offset + sm.length) (offset + sm.length + min (t.sig.length : Int) (frame + ss.length - sm.length + t.check.length) - t.check.length - ss.length) = cb)
    (hp : cb.isPrefixOf t.sig = true) (hne : cb ≠ []) :
    mkvFindFrame base ss sm buff t offset frame =
      { t with check := cb, matchLen := t.matchLen + min (t.len - t.matchLen) (frame + ss.length - sm.length) } := by
  unfold mkvFindFrame
  simp only [if_pos h, hcb, if_pos hp, if_neg hne]

theorem findFrame_full {base offset frame : Int} {ss sm buff : Bytes} {t : MkvTrack} (h : ¬ (0 < t.check.length ∧ t.check.length < t.sig.length))
    (hne : t.check ≠ []) :
    mkvFindFrame base ss sm buff t offset frame =
      { t with matchLen := t.matchLen + min (t.len - t.matchLen) (frame + ss.length - sm.length) } := by
  unfold mkvFindFrame
  simp only [if_neg h, if_neg hne]

theorem findFrame_lost {base offset frame : Int} {ss sm buff : Bytes} {t : MkvTrack} (h : 0 < t.check.length ∧ t.check.length < t.sig.length)
    (hp : (t.check ++ ss ++ pySlice buff (offset + sm.length) (offset + sm.length + min (t.sig.length : Int) (frame + ss.length - sm.length + t.check.length) - t.check.length - ss.length)).isPrefixOf t.sig = false) :
    mkvFindFrame base ss sm buff t offset frame = mkvFindFrame base ss sm buff { t with check := [], offset := 0, matchLen := 0 } offset frame := by
  have h1 : ¬ (0 < ([] : Bytes).length ∧ ([] : Bytes).length < t.sig.length) := by simp
  unfold mkvFindFrame
  simp only [if_pos h, hp, if_neg h1]
  simp

/-- A frame that is not part of the sample: what is compared starts with the frame, or with one
before, or nothing is; or the signature is complete. -/
theorem fresh_frame {sig mh sh f : Bytes} {len : Int} (hstrip : mh = sh ∨ sh = [] ∨ (mh = [] ∧ sh <+: f)) (hlen : (sig.length : Int) ≤ len)
    {t : MkvTrack} (hs : t.sig = sig) (hl : t.len = len) (hset : t.settings = sh) (hc : t.check = []) (hm : t.matchLen = 0) (hsig : sig ≠ [])
    (a b : Bytes) (base : Int) (hno : ¬ sig <+: recut mh sh f) :
    ∃ t', mkvFindFrame base (ssOf mh sh) (smOf mh sh) (a ++ (f ++ b)) t a.length f.length = t' ∧ t'.sig = sig ∧ t'.len = len ∧ t'.settings = sh ∧
      ((t'.check = [] ∧ t'.matchLen = 0) ∨
       (t'.check = recut mh sh f ∧ t'.check <+: sig ∧ t'.check.length < sig.length ∧ t'.matchLen = t'.check.length)) := by
  obtain ⟨h1, h2, h3, h4⟩ := recut_eq hstrip
  have hfl : (f.length : Int) + (ssOf mh sh).length - (smOf mh sh).length = (recut mh sh f).length := by omega
  refine ⟨_, rfl, ?_⟩
  rw [findFrame_fresh hc, hfl, hs]
  by_cases hk : (ssOf mh sh).length ≤ min sig.length (recut mh sh f).length
  · rw [show min (sig.length : Int) ((recut mh sh f).length : Int) = ((min sig.length (recut mh sh f).length : Nat) : Int) by omega,
      find_piece hstrip a b _ hk (by omega)]
    split
    · rename_i hp
      rw [prefix_isPrefixOf] at hp
      refine ⟨by first | exact hs | rfl, hl, hset, Or.inr ?_⟩
      dsimp only
      by_cases hle : sig.length ≤ (recut mh sh f).length
      · exfalso
        rw [show min sig.length (recut mh sh f).length = sig.length by omega] at hp
        apply hno
        have : (recut mh sh f).take sig.length = sig := hp.eq_of_length (by rw [List.length_take]; omega)
        rw [← this]; exact List.take_prefix _ _
      · rw [show min sig.length (recut mh sh f).length = (recut mh sh f).length by omega, List.take_length] at hp ⊢
        exact ⟨rfl, hp, by omega, by rw [hl]; omega⟩
    · exact ⟨hs, hl, hset, Or.inl ⟨hc, hm⟩⟩
  · rw [if_neg]
    · exact ⟨hs, hl, hset, Or.inl ⟨hc, hm⟩⟩
    · rw [prefix_isPrefixOf]
      intro hp
      have hl := hp.length_le
      rw [List.length_append] at hl
      have : (ssOf mh sh).length ≤ (recut mh sh f).length := by rw [h1]; simp
      omega

theorem try_frame {sig mh sh f : Bytes} {len : Int} (hstrip : mh = sh ∨ sh = [] ∨ (mh = [] ∧ sh <+: f)) (hlen : (sig.length : Int) ≤ len)
    {t : MkvTrack} (hs : t.sig = sig) (hl : t.len = len) (hset : t.settings = sh) (hc : t.check <+: sig) (hcl : t.check.length < sig.length)
    (hm : t.matchLen = t.check.length) (hsig : sig ≠ [])
    (a b : Bytes) (base : Int) (hno : ¬ sig <+: recut mh sh f) (hno2 : ¬ sig <+: t.check ++ recut mh sh f) :
    ∃ t', mkvFindFrame base (ssOf mh sh) (smOf mh sh) (a ++ (f ++ b)) t a.length f.length = t' ∧ t'.sig = sig ∧ t'.len = len ∧ t'.settings = sh ∧
      ((t'.check = [] ∧ t'.matchLen = 0) ∨
       (t'.check = recut mh sh f ∧ t'.check <+: sig ∧ t'.check.length < sig.length ∧ t'.matchLen = t'.check.length) ∨
       (t'.check = t.check ++ recut mh sh f ∧ t'.check <+: sig ∧ t'.check.length < sig.length ∧ t'.matchLen = t'.check.length)) := by
  obtain ⟨h1, h2, h3, h4⟩ := recut_eq hstrip
  have hfl : (f.length : Int) + (ssOf mh sh).length - (smOf mh sh).length = (recut mh sh f).length := by omega
  by_cases hne : t.check = []
  · obtain ⟨t', e, h5, h6, h7, h8⟩ := fresh_frame hstrip hlen hs hl hset hne (by rw [hm, hne]; rfl) hsig a b base hno
    refine ⟨t', e, h5, h6, h7, ?_⟩
    rcases h8 with h8 | h8
    · exact Or.inl h8
    · exact Or.inr (Or.inl h8)
  · have hpos : 0 < t.check.length ∧ t.check.length < t.sig.length := ⟨List.length_pos_iff.2 hne, by rw [hs]; exact hcl⟩
    cases hp : (t.check ++ ssOf mh sh ++ pySlice (a ++ (f ++ b)) ((a.length : Int) + (smOf mh sh).length) ((a.length : Int) + (smOf mh sh).length + min (t.sig.length : Int) ((f.length : Int) + (ssOf mh sh).length - (smOf mh sh).length + t.check.length) - t.check.length - (ssOf mh sh).length)).isPrefixOf t.sig with
    | false =>
      rw [findFrame_lost hpos hp]
      obtain ⟨t', e, h5, h6, h7, h8⟩ := fresh_frame (t := { t with check := [], offset := 0, matchLen := 0 }) hstrip hlen hs hl hset rfl rfl hsig a b base hno
      refine ⟨t', e, h5, h6, h7, ?_⟩
      rcases h8 with h8 | h8
      · exact Or.inl h8
      · exact Or.inr (Or.inl h8)
    | true =>
      have hss : (ssOf mh sh).length ≤ (recut mh sh f).length := by rw [h1]; simp
      have hss2 : t.check.length + (ssOf mh sh).length ≤ sig.length := by
        have := ((prefix_isPrefixOf _ _).1 hp).length_le
        rw [List.length_append, List.length_append, hs] at this
        omega
      have hpc := find_piece hstrip a b (min (sig.length - t.check.length) (recut mh sh f).length) (by omega) (by omega)
      have hcb : t.check ++ ssOf mh sh ++ pySlice (a ++ (f ++ b)) ((a.length : Int) + (smOf mh sh).length) ((a.length : Int) + (smOf mh sh).length + min (t.sig.length : Int) ((f.length : Int) + (ssOf mh sh).length - (smOf mh sh).length + t.check.length) - t.check.length - (ssOf mh sh).length) =
          t.check ++ (recut mh sh f).take (min (sig.length - t.check.length) (recut mh sh f).length) := by
        rw [hfl, hs, show ((a.length : Int) + (smOf mh sh).length + min (sig.length : Int) ((recut mh sh f).length + t.check.length) - t.check.length - (ssOf mh sh).length) =
              (a.length : Int) + (smOf mh sh).length + (min (sig.length - t.check.length) (recut mh sh f).length : Nat) - (ssOf mh sh).length by omega,
              List.append_assoc t.check, hpc]
      have hpp := hp
      rw [hcb, hs, prefix_isPrefixOf] at hpp
      have hshort : t.check.length + (recut mh sh f).length < sig.length := by
        apply Nat.lt_of_not_le
        intro hle
        apply hno2
        rw [show min (sig.length - t.check.length) (recut mh sh f).length = sig.length - t.check.length by omega] at hpp
        have e : t.check ++ (recut mh sh f).take (sig.length - t.check.length) = sig := hpp.eq_of_length (by
          rw [List.length_append, List.length_take]; omega)
        obtain ⟨k, hk⟩ := List.take_prefix (sig.length - t.check.length) (recut mh sh f)
        refine ⟨k, ?_⟩
        have e2 := congrArg (· ++ k) e
        rw [← show _ = sig ++ k from e2, List.append_assoc, hk]
      rw [show min (sig.length - t.check.length) (recut mh sh f).length = (recut mh sh f).length by omega, List.take_length] at hpp hcb
      refine ⟨_, findFrame_more hpos hcb (by rw [hs]; exact (prefix_isPrefixOf _ _).2 hpp) (by simp [hne]), hs, hl, hset, Or.inr (Or.inr ⟨rfl, hpp, ?_, ?_⟩)⟩
      · dsimp only; rw [List.length_append]; exact hshort
      · dsimp only
        rw [hfl, hm, hl, List.length_append]
        omega

/-- The next frame. -/
theorem found_frame {sig mh sh D : Bytes} {A B : List (Nat × Bytes)} {x : Nat × Bytes} {len : Int} (hc : CutAt sig mh sh D A x B)
    (hlen : (sig.length : Int) ≤ len)
    {G rest : List (Nat × Bytes)} {q : Nat} {f : Bytes} (hG : A ++ x :: B = G ++ (q, f) :: rest) {t : MkvTrack} (ht : Found sig mh sh A x len G t)
    (a b : Bytes) (base : Int) (hq : base + a.length = q) :
    Found sig mh sh A x len (G ++ [(q, f)]) (mkvFindFrame base (ssOf mh sh) (smOf mh sh) (a ++ (f ++ b)) t a.length f.length) := by
  have hstrip : mh = sh ∨ sh = [] ∨ (mh = [] ∧ sh <+: f) := by
    rcases hc.strip with h | h | ⟨h1, h2⟩
    · exact Or.inl h
    · exact Or.inr (Or.inl h)
    · exact Or.inr (Or.inr ⟨h1, h2 (q, f) (by rw [hG]; simp)⟩)
  obtain ⟨h1, h2, h3, h4⟩ := recut_eq hstrip
  have hfl : (f.length : Int) + (ssOf mh sh).length - (smOf mh sh).length = (recut mh sh f).length := by omega
  have hs := ht.sigOf
  by_cases hlt : G.length < A.length
  · -- before the sample
    obtain ⟨hb1, hb2, hb3, G1, G2, hb4, hb5⟩ := ht.before (by omega)
    have hA : ∃ A', A = G ++ (q, f) :: A' := by
      have e := congrArg (List.take A.length) hG
      rw [List.take_left, List.take_append, List.take_of_length_le (by omega)] at e
      cases hk : A.length - G.length with
      | zero => omega
      | succ k =>
        rw [hk, List.take_succ_cons] at e
        exact ⟨_, e⟩
    obtain ⟨A', hA⟩ := hA
    have hfull : ∀ c : List (Nat × Bytes), (∃ d, G = d ++ c) → ¬ sig <+: (c.map fun f => recut mh sh f.2).flatten ++ recut mh sh f := by
      rintro c ⟨d, hd⟩ hp
      refine hc.unlike d (c ++ (q, f) :: A') (by rw [hA, hd]; simp) (by simp) ?_
      have : sig <+: ((c ++ (q, f) :: A').map fun f => (mh ++ f.2).drop sh.length).flatten := by
        refine hp.trans ⟨(A'.map fun f => recut mh sh f.2).flatten, ?_⟩
        simp [recut]
      rw [← List.prefix_iff_eq_take.1 this]
      exact List.prefix_rfl
    obtain ⟨t', key, hk1, hk2, hk3, hk4⟩ := try_frame hstrip hlen hs ht.lenOf ht.settings hb1 hb2 hb3 hc.sig1 a b base
      (by have := hfull [] ⟨G, by simp⟩; simpa using this) (by rw [hb5]; exact hfull G2 ⟨G1, hb4⟩)
    rw [key]
    refine ⟨hk1, hk2, hk3, fun _ => ?_, fun h => by simp at h; omega⟩
    rcases hk4 with ⟨e1, e2⟩ | ⟨e1, e2, e3, e4⟩ | ⟨e1, e2, e3, e4⟩
    · rw [e1, e2]
      exact ⟨List.nil_prefix, List.length_pos_iff.2 hc.sig1, rfl, G ++ [(q, f)], [], by simp, rfl⟩
    · exact ⟨e2, e3, e4, G, [(q, f)], rfl, by rw [e1]; simp⟩
    · exact ⟨e2, e3, e4, G1, G2 ++ [(q, f)], by rw [hb4]; simp, by rw [e1, hb5]; simp⟩
  · by_cases heq : G.length = A.length
    · -- the first frame of the sample
      obtain ⟨hb1, hb2, hb3, G1, G2, hb4, hb5⟩ := ht.before (by omega)
      obtain ⟨e1, e2⟩ := List.append_inj hG (by omega)
      have hG2 : G2 = [] := by
        apply Classical.byContradiction
        intro hne
        refine hc.unlike G1 G2 (by rw [e1, hb4]) hne ?_
        have : (G2.map fun f => (mh ++ f.2).drop sh.length).flatten = t.check := hb5.symm
        rw [this, List.take_of_length_le (by omega)]
        exact hb1
      replace hb1 : t.check = [] := by rw [hb5, hG2]; rfl
      rw [List.cons.injEq] at e2
      obtain ⟨rfl, e2⟩ := e2
      have hD : recut mh sh f <+: D ∨ D <+: recut mh sh f := by
        have := hc.data
        rw [List.map_cons, List.flatten_cons] at this
        exact List.prefix_or_prefix_of_prefix (List.prefix_append _ _) this
      have hsr : recut mh sh f <+: sig ∨ sig <+: recut mh sh f := by
        have := hc.data
        rw [List.map_cons, List.flatten_cons] at this
        exact List.prefix_or_prefix_of_prefix (List.prefix_append _ _) (hc.sigOf.trans this)
      have hss : (ssOf mh sh).length ≤ min sig.length (recut mh sh f).length := by
        by_cases he : ssOf mh sh = []
        · rw [he]; simp
        · obtain ⟨e3, e4⟩ := h4 he
          have h5 := hc.clear e3 0
          simp only [List.take_zero, List.map_nil, List.flatten_nil, List.length_nil, Nat.zero_add] at h5
          have h6 := h5 (by rw [List.length_pos_iff]; exact hc.sig1)
          have h7 : (ssOf mh sh).length ≤ mh.length := by unfold ssOf; split <;> simp
          rw [e4] at h3
          simp at h3
          omega
      have hcb : (recut mh sh f).take (min sig.length (recut mh sh f).length) = sig.take (recut mh sh f).length := by
        rcases hsr with h | h
        · have := h.length_le
          rw [show min sig.length (recut mh sh f).length = (recut mh sh f).length by omega]
          rw [take_prefix_eq h (by omega)]
        · have := h.length_le
          rw [show min sig.length (recut mh sh f).length = sig.length by omega, ← take_prefix_eq h (by omega), List.take_length,
            List.take_of_length_le (by omega)]
      have key : mkvFindFrame base (ssOf mh sh) (smOf mh sh) (a ++ (f ++ b)) t a.length f.length =
          { t with check := sig.take (recut mh sh f).length, offset := base + a.length, matchLen := min t.len (recut mh sh f).length } := by
        rw [findFrame_fresh hb1, hfl, hs]
        rw [show min (sig.length : Int) ((recut mh sh f).length : Int) = ((min sig.length (recut mh sh f).length : Nat) : Int) by omega,
          find_piece hstrip a b _ hss (by omega), hcb, if_pos ((prefix_isPrefixOf _ _).2 (List.take_prefix _ _))]
      rw [key]
      refine ⟨ht.sigOf, ht.lenOf, ht.settings, fun h => by simp at h; omega, fun _ => ⟨hq, ?_⟩⟩
      rw [List.drop_append, e1]
      simp
    · -- a frame behind it
      obtain ⟨ha1, ha2⟩ := ht.after (by omega)
      have hGd : ∃ H, G = A ++ x :: H ∧ B = H ++ (q, f) :: rest := by
        have e := hG
        rw [show G = G.take A.length ++ G.drop A.length by simp, List.append_assoc] at e
        obtain ⟨e1, e2⟩ := List.append_inj e (by simp; omega)
        cases hd : G.drop A.length with
        | nil => have := congrArg List.length hd; simp at this; omega
        | cons y H =>
          rw [hd, List.cons_append, List.cons.injEq] at e2
          refine ⟨H, ?_, e2.2⟩
          calc G = G.take A.length ++ G.drop A.length := (List.take_append_drop ..).symm
            _ = A ++ x :: H := by rw [← e1, hd, e2.1]
      obtain ⟨H, rfl, rfl⟩ := hGd
      have hdrop : (A ++ x :: H).drop A.length = x :: H := List.drop_left
      rw [hdrop] at ha2
      have hdrop2 : (A ++ x :: H ++ [(q, f)]).drop A.length = x :: (H ++ [(q, f)]) := by
        rw [List.append_assoc, List.drop_left]; rfl
      have hne : t.check ≠ [] := by
        intro e
        rw [ha2] at e
        have h5 : 0 < sig.length := List.length_pos_iff.2 hc.sig1
        have h6 : 0 < (recut mh sh x.2).length := List.length_pos_iff.2 hc.first
        have := congrArg List.length e
        simp only [List.map_cons, List.flatten_cons, List.length_append, List.length_take, List.length_nil] at this
        omega
      have hcl : t.check.length = min ((x :: H).map fun g => recut mh sh g.2).flatten.length sig.length := by
        rw [ha2, List.length_take]
      have hlen2 : ((x :: (H ++ [(q, f)])).map fun g => recut mh sh g.2).flatten.length =
          ((x :: H).map fun g => recut mh sh g.2).flatten.length + (recut mh sh f).length := by
        simp; omega
      by_cases hcm : t.check.length < sig.length
      · -- the comparison goes on
        have hc1 : t.check.length = ((x :: H).map fun g => recut mh sh g.2).flatten.length := by omega
        have hss : (ssOf mh sh).length ≤ min (sig.length - t.check.length) (recut mh sh f).length := by
          by_cases he : ssOf mh sh = []
          · rw [he]; simp
          · obtain ⟨e3, e4⟩ := h4 he
            have h5 := hc.clear e3 (H.length + 1)
            rw [show (x :: (H ++ (q, f) :: rest)).take (H.length + 1) = x :: H by simp] at h5
            have h6 := h5 (by rw [hc1] at hcm; exact hcm)
            have h7 : (ssOf mh sh).length ≤ mh.length := by unfold ssOf; split <;> simp
            rw [e4] at h3
            simp only [List.length_nil, Nat.add_zero] at h3
            have h8 : ((x :: H).map fun g => recut mh sh g.2).flatten.length + mh.length ≤ sig.length := h6
            omega
        have hsr : ∀ k, k ≤ (recut mh sh f).length → t.check.length + k ≤ sig.length →
            t.check ++ (recut mh sh f).take k = sig.take (t.check.length + k) := by
          intro k hk1 hk2
          have h5 : sig <+: ((x :: (H ++ (q, f) :: rest)).map fun g => recut mh sh g.2).flatten := hc.sigOf.trans hc.data
          rw [take_prefix_eq h5 hk2]
          have hsplit : ((x :: (H ++ (q, f) :: rest)).map fun g => recut mh sh g.2).flatten = ((x :: H).map fun g => recut mh sh g.2).flatten ++
              (recut mh sh f ++ (rest.map fun g => recut mh sh g.2).flatten) := by simp
          rw [hsplit]
          have hch : t.check = ((x :: H).map fun g => recut mh sh g.2).flatten := by
            rw [ha2, take_prefix_eq h5 (by omega), show x :: (H ++ (q, f) :: rest) = (x :: H) ++ (q, f) :: rest from rfl, List.map_append,
              List.flatten_append, List.take_left]
          rw [hch, List.take_length_add_append, List.take_append, show k - (recut mh sh f).length = 0 by omega]
          simp
        have key : mkvFindFrame base (ssOf mh sh) (smOf mh sh) (a ++ (f ++ b)) t a.length f.length =
            { t with check := sig.take (t.check.length + (recut mh sh f).length),
                     matchLen := t.matchLen + min (t.len - t.matchLen) (recut mh sh f).length } := by
          have hp := find_piece hstrip a b (min (sig.length - t.check.length) (recut mh sh f).length) hss (by omega)
          have hmin : sig.take (t.check.length + min (sig.length - t.check.length) (recut mh sh f).length) =
              sig.take (t.check.length + (recut mh sh f).length) := by
            by_cases h5 : sig.length - t.check.length ≤ (recut mh sh f).length
            · rw [List.take_of_length_le (by omega), List.take_of_length_le (by omega)]
            · rw [show min (sig.length - t.check.length) (recut mh sh f).length = (recut mh sh f).length by omega]
          rw [findFrame_more (cb := sig.take (t.check.length + (recut mh sh f).length)) (by rw [hs]; exact ⟨List.length_pos_iff.2 hne, hcm⟩), hfl]
          · rw [hfl, hs, show ((a.length : Int) + (smOf mh sh).length + min (sig.length : Int) ((recut mh sh f).length + t.check.length) - t.check.length - (ssOf mh sh).length) =
              (a.length : Int) + (smOf mh sh).length + (min (sig.length - t.check.length) (recut mh sh f).length : Nat) - (ssOf mh sh).length by omega,
              List.append_assoc t.check, hp, hsr _ (by omega) (by omega), hmin]
          · rw [hs]; exact (prefix_isPrefixOf _ _).2 (List.take_prefix _ _)
          · intro e
            have := congrArg List.length e
            rw [List.length_take, List.length_nil] at this
            have := List.length_pos_iff.2 hne
            omega
        rw [key]
        refine ⟨ht.sigOf, ht.lenOf, ht.settings, fun h => by simp at h; omega, fun _ => ⟨ha1, ?_⟩⟩
        dsimp only
        rw [hdrop2, hlen2, hc1]
      · -- the signature is complete
        have key : mkvFindFrame base (ssOf mh sh) (smOf mh sh) (a ++ (f ++ b)) t a.length f.length =
            { t with matchLen := t.matchLen + min (t.len - t.matchLen) (recut mh sh f).length } := by
          rw [findFrame_full (by rw [hs]; omega) hne, hfl]
        rw [key]
        refine ⟨ht.sigOf, ht.lenOf, ht.settings, fun h => by simp at h; omega, fun _ => ⟨ha1, ?_⟩⟩
        dsimp only
        rw [hdrop2, hlen2, ha2]
        rw [List.take_of_length_le (by omega), List.take_of_length_le (by omega)]

/-- The frames of a block. -/
theorem found_frames {sig mh sh D : Bytes} {A B : List (Nat × Bytes)} {x : Nat × Bytes} {len : Int} (hc : CutAt sig mh sh D A x B)
    (hlen : (sig.length : Int) ≤ len) {rest : List (Nat × Bytes)} (base : Int) : ∀ {fs : List Bytes} {G : List (Nat × Bytes)} {q : Nat} {t : MkvTrack} (a : Bytes),
    A ++ x :: B = G ++ (framesAt q fs ++ rest) → Found sig mh sh A x len G t → base + a.length = q →
    Found sig mh sh A x len (G ++ framesAt q fs)
      (mkvFindFrames base (ssOf mh sh) (smOf mh sh) (a ++ fs.flatten) t a.length (fs.map fun f => (f.length : Int)))
  | [], G, q, t, a, _, ht, _ => by simpa [framesAt, mkvFindFrames] using ht
  | f :: fs, G, q, t, a, hG, ht, hq => by
    rw [framesAt, List.cons_append] at hG
    have h1 := found_frame hc hlen hG ht a fs.flatten base hq
    have h2 := found_frames hc hlen (rest := rest) base (fs := fs) (q := q + f.length) (a ++ f) (by rw [hG]; simp) h1 (by rw [List.length_append]; omega)
    rw [framesAt, List.map_cons, mkvFindFrames, List.flatten_cons]
    rw [List.append_assoc, List.append_assoc] at h2
    rw [List.length_append, Int.natCast_add] at h2
    exact h2

theorem found_more {sig mh sh : Bytes} {A G F : List (Nat × Bytes)} {x : Nat × Bytes} {len m : Int} {t : MkvTrack}
    (h : Found sig mh sh A x len G t) (hs : sig ≠ []) (hsr : t.search = false) :
    Found sig mh sh A x len (G ++ F) { t with matchLen := m } := by
  unfold MkvTrack.search at hsr
  rw [h.sigOf] at hsr
  simp only [hs, ne_eq, not_false_eq_true, decide_true, Bool.true_and, Bool.or_eq_false_iff, beq_eq_false_iff_ne, decide_eq_false_iff_not,
    Nat.not_lt] at hsr
  have hlt : A.length < G.length := by
    apply Nat.lt_of_not_le
    intro hle
    have := (h.before hle).2.1
    omega
  obtain ⟨h1, h2⟩ := h.after hlt
  refine ⟨h.sigOf, h.lenOf, h.settings, fun hle => by rw [List.length_append] at hle; omega, fun _ => ⟨h1, ?_⟩⟩
  dsimp only
  have hl := hsr.2
  rw [h2, List.length_take] at hl
  rw [h2, List.drop_append, List.map_append, List.flatten_append, List.length_append, List.take_of_length_le (by omega),
    List.take_of_length_le (by omega)]

theorem trackFrames_block (n pos : Nat) (b : MkvBlock) : trackFrames n pos [.block b] =
    if b.track = n then framesAt (pos + (MkvPart.block b).head.length) b.frames else [] := by
  rw [trackFrames]
  simp [trackFrames]

theorem trackFrames_other (n : Nat) : ∀ (ps : List MkvPart) (pos : Nat), (∀ b, .block b ∈ ps → b.track ≠ n) → trackFrames n pos ps = []
  | [], _, _ => rfl
  | .enter id size :: a, pos, h => by
    rw [trackFrames, trackFrames_other n a _ fun b hb => h b (by simp [hb])]
    simp
  | .leaf id size data :: a, pos, h => by
    rw [trackFrames, trackFrames_other n a _ fun b hb => h b (by simp [hb])]
    simp
  | .block c :: a, pos, h => by
    rw [trackFrames, trackFrames_other n a _ fun b hb => h b (by simp [hb]), if_neg (h c (by simp))]
    simp

/-- The tracks of a sample, and where they are in a movie. -/
structure CutTracks (ts : MkvTracks) (parts : List MkvPart) (mh : Nat → Bytes) (D : Nat → Bytes) (A : Nat → List (Nat × Bytes))
    (x : Nat → Nat × Bytes) (B : Nat → List (Nat × Bytes)) : Prop where
  distinct : ts.Pairwise fun a b => a.1 ≠ b.1
  fresh : ∀ n t, movGet ts n = some t → t.check = [] ∧ t.matchLen = 0 ∧ (t.sig = [] → t.len = 0) ∧ (t.sig.length : Int) ≤ t.len
  cut : ∀ n t, movGet ts n = some t → t.sig ≠ [] → CutAt t.sig (mh n) t.settings (D n) (A n) (x n) (B n) ∧
    trackFrames n 0 parts = A n ++ x n :: B n

/-- The state of the search. -/
structure MkvFindInv (ts : MkvTracks) (mh : Nat → Bytes) (A : Nat → List (Nat × Bytes)) (x : Nat → Nat × Bytes)
    (done : List MkvPart) (s : MkvFind) : Prop where
  main : MainInv done s.mains s.cur s.strip
  distinct : s.tracks.Pairwise fun a b => a.1 ≠ b.1
  old : ∀ n t0, movGet ts n = some t0 → ∃ t, movGet s.tracks n = some t ∧ (t0.sig = [] → t = t0) ∧
    (t0.sig ≠ [] → Found t0.sig (mh n) t0.settings (A n) (x n) t0.len (trackFrames n 0 done) t)
  new : ∀ n t, movGet s.tracks n = some t → movGet ts n = none → t.sig = [] ∧ t.len = 0 ∧ t.matchLen = 0

/-- The search may end. -/
def MkvFindEnd (ts : MkvTracks) (mh : Nat → Bytes) (A : Nat → List (Nat × Bytes)) (x : Nat → Nat × Bytes) (s : MkvFind) : Prop :=
  ∃ done, MkvFindInv ts mh A x done s ∧ ∀ y ∈ s.tracks, y.2.len ≤ y.2.matchLen

theorem blockFind_search {s : MkvFind} {e : EbmlElem} {b : EbmlBlock} {buff m : Bytes} {t : MkvTrack} (ht : mkvTrackOf s.tracks b.track = t)
    (hm : movGet s.mains b.track = some m) (hs : t.search = true) :
    mkvBlockFind s e b buff = ({ s with tracks := dictPut s.tracks b.track (mkvFindFrames (e.start + e.header.length + b.head.length) (ssOf m t.settings) (smOf m t.settings) buff t 0 b.frames) }, false) := by
  unfold mkvBlockFind ssOf smOf
  simp only [ht, hm, Option.isSome_some, Option.getD_some, if_true, if_pos hs, decide_eq_true_eq]

theorem blockFind_more {s : MkvFind} {e : EbmlElem} {b : EbmlBlock} {buff m : Bytes} {t : MkvTrack} (ht : mkvTrackOf s.tracks b.track = t)
    (hm : movGet s.mains b.track = some m) (hs : t.search = false) (hl : t.matchLen < t.len) :
    mkvBlockFind s e b buff = ({ s with tracks := dictPut s.tracks b.track { t with matchLen := t.matchLen + min (t.len - t.matchLen) e.length } },
      (dictPut s.tracks b.track { t with matchLen := t.matchLen + min (t.len - t.matchLen) e.length }).all fun x => decide (x.2.len ≤ x.2.matchLen)) := by
  unfold mkvBlockFind
  simp only [ht, hm, Option.isSome_some, Option.getD_some, if_true, hs, if_pos hl]
  rfl

theorem blockFind_none {s : MkvFind} {e : EbmlElem} {b : EbmlBlock} {buff m : Bytes} {t : MkvTrack} (ht : mkvTrackOf s.tracks b.track = t)
    (hm : movGet s.mains b.track = some m) (hs : t.search = false) (hl : ¬ t.matchLen < t.len) :
    mkvBlockFind s e b buff = ({ s with tracks := dictPut s.tracks b.track t }, false) := by
  unfold mkvBlockFind
  simp only [ht, hm, Option.isSome_some, Option.getD_some, if_true, hs, if_neg hl]
  rfl

theorem find_block {ts : MkvTracks} {parts : List MkvPart} {mh D : Nat → Bytes} {A B : Nat → List (Nat × Bytes)} {x : Nat → Nat × Bytes}
    (hc : CutTracks ts parts mh D A x B) {done rest : List MkvPart} {b : MkvBlock} (hparts : parts = done ++ .block b :: rest)
    {s : MkvFind} (hi : MkvFindInv ts mh A x done s) (hmain : movGet s.mains b.track = some (mh b.track)) :
    ∃ s' d, mkvFindItem s (MkvPart.elem (mkvBytes done).length (.block b)) (ebmlSeen (mkvFindHow s (MkvPart.elem (mkvBytes done).length (.block b))) (.block b)) =
      .ok (s', d) ∧ MkvFindInv ts mh A x (done ++ [.block b]) s' ∧ (d = true → MkvFindEnd ts mh A x s') := by
  have hmain' : MainInv (done ++ [.block b]) s.mains s.cur s.strip := mainInv_same hi.main (by
    intro p hp
    rw [List.mem_singleton.1 hp]
    exact ⟨fun _ => rfl, by simp⟩)
  -- the state with another track
  have upd : ∀ t', (∀ t0, movGet ts b.track = some t0 → (t0.sig = [] → t' = t0) ∧
      (t0.sig ≠ [] → Found t0.sig (mh b.track) t0.settings (A b.track) (x b.track) t0.len
        (trackFrames b.track 0 done ++ framesAt ((mkvBytes done).length + (MkvPart.block b).head.length) b.frames) t')) →
      (movGet ts b.track = none → t'.sig = [] ∧ t'.len = 0 ∧ t'.matchLen = 0) →
      MkvFindInv ts mh A x (done ++ [.block b]) { s with tracks := dictPut s.tracks b.track t' } := by
    intro t' h1 h2
    refine ⟨hmain', dictPut_distinct hi.distinct _ _, ?_, ?_⟩
    · intro n t0 ht0
      dsimp only
      rw [movGet_dictPut, trackFrames_append, trackFrames_block, Nat.zero_add]
      by_cases hn : n = b.track
      · subst hn
        rw [if_pos rfl, if_pos rfl]
        exact ⟨t', rfl, h1 t0 ht0⟩
      · rw [if_neg hn, if_neg (fun h => hn h.symm), List.append_nil]
        exact hi.old n t0 ht0
    · intro n t ht hts
      dsimp only at ht
      rw [movGet_dictPut] at ht
      split at ht
      · rename_i hn
        subst hn
        injection ht with ht
        subst ht
        exact h2 hts
      · exact hi.new n t ht hts
  have hitem : ∀ buff, mkvFindItem s (MkvPart.elem (mkvBytes done).length (.block b)) buff =
      .ok (mkvBlockFind s (MkvPart.elem (mkvBytes done).length (.block b)) b.info buff) := fun _ => rfl
  have hseen : ebmlSeen (mkvFindHow s (MkvPart.elem (mkvBytes done).length (.block b))) (.block b) =
      if (mkvTrackOf s.tracks b.track).search then b.data else [] := by
    show (if (if (mkvTrackOf s.tracks b.track).search = true then EbmlHow.read else EbmlHow.skip) = EbmlHow.read then b.data else []) = _
    by_cases h : (mkvTrackOf s.tracks b.track).search = true
    · rw [if_pos h, if_pos h, if_pos rfl]
    · rw [if_neg h, if_neg h, if_neg (by simp)]
  rw [hitem, hseen]
  have hm : movGet s.mains b.info.track = some (mh b.track) := hmain
  -- the track
  cases h0 : movGet ts b.track with
  | none =>
    have ht : (mkvTrackOf s.tracks b.track).sig = [] ∧ (mkvTrackOf s.tracks b.track).len = 0 ∧ (mkvTrackOf s.tracks b.track).matchLen = 0 := by
      unfold mkvTrackOf
      cases hg : movGet s.tracks b.track with
      | none => exact ⟨rfl, rfl, rfl⟩
      | some t => exact hi.new _ t hg h0
    have hsr : (mkvTrackOf s.tracks b.track).search = false := by
      unfold MkvTrack.search; rw [ht.1]; simp
    rw [blockFind_none (b := b.info) rfl hm hsr (by rw [show mkvTrackOf s.tracks b.info.track = mkvTrackOf s.tracks b.track from rfl, ht.2.1, ht.2.2]; omega)]
    exact ⟨_, _, rfl, upd _ (fun t0 h => by rw [h0] at h; simp at h) (fun _ => ht), fun h => by simp at h⟩
  | some t0 =>
    obtain ⟨t, hg, ho1, ho2⟩ := hi.old _ t0 h0
    have htr : mkvTrackOf s.tracks b.track = t := by unfold mkvTrackOf; rw [hg]; rfl
    rw [htr]
    by_cases hsig : t0.sig = []
    · have := ho1 hsig
      subst this
      have hf := hc.fresh _ t h0
      have hsr : t.search = false := by unfold MkvTrack.search; rw [hsig]; simp
      rw [blockFind_none (b := b.info) htr hm hsr (by rw [hf.2.1, hf.2.2.1 hsig]; omega)]
      refine ⟨_, _, rfl, upd _ (fun t1 h => ?_) (fun h => by rw [h0] at h; simp at h), fun h => by simp at h⟩
      rw [h0] at h
      injection h with h
      subst h
      exact ⟨fun _ => rfl, fun h => absurd hsig h⟩
    · have hfd := ho2 hsig
      obtain ⟨hcut, hfr⟩ := hc.cut _ t0 h0 hsig
      by_cases hsr : t.search = true
      · rw [if_pos hsr, blockFind_search (b := b.info) htr hm hsr]
        refine ⟨_, _, rfl, upd _ (fun t1 h => ?_) (fun h => by rw [h0] at h; simp at h), fun h => by simp at h⟩
        rw [h0] at h
        injection h with h
        subst h
        refine ⟨fun h => absurd h hsig, fun _ => ?_⟩
        have hG : A b.track ++ x b.track :: B b.track = trackFrames b.track 0 done ++
            (framesAt ((mkvBytes done).length + (MkvPart.block b).head.length) b.frames ++
              trackFrames b.track ((mkvBytes done).length + (MkvPart.block b).bytes.length) rest) := by
          rw [← hfr, hparts, trackFrames_append, trackFrames, if_pos rfl, Nat.zero_add]
        have := found_frames hcut (hc.fresh _ t0 h0).2.2.2 (base := ((mkvBytes done).length + (MkvPart.block b).head.length : Nat)) [] hG hfd (by simp)
        rw [List.nil_append] at this
        rw [hfd.settings]
        have hbase : (((MkvPart.elem (mkvBytes done).length (.block b)).start : Nat) : Int) +
            (MkvPart.elem (mkvBytes done).length (.block b)).header.length + b.info.head.length =
            (((mkvBytes done).length + (MkvPart.block b).head.length : Nat) : Int) := by
          show (((mkvBytes done).length : Nat) : Int) + _ + _ = _
          simp [MkvPart.elem, MkvPart.head, MkvBlock.info]
          omega
        rw [hbase]
        exact this
      · have hsr' : t.search = false := by simpa using hsr
        by_cases hl : t.matchLen < t.len
        · rw [blockFind_more (b := b.info) htr hm hsr' hl]
          have hI := upd { t with matchLen := t.matchLen + min (t.len - t.matchLen) (MkvPart.elem (mkvBytes done).length (.block b)).length }
            (fun t1 h => by
              rw [h0] at h
              injection h with h
              subst h
              exact ⟨fun h => absurd h hsig, fun _ => found_more hfd hsig hsr'⟩) (fun h => by rw [h0] at h; simp at h)
          refine ⟨_, _, rfl, hI, fun hd => ⟨_, hI, ?_⟩⟩
          intro y hy
          have := List.all_eq_true.1 hd y hy
          simpa using this
        · rw [blockFind_none (b := b.info) htr hm hsr' hl]
          refine ⟨_, _, rfl, upd _ (fun t1 h => ?_) (fun h => by rw [h0] at h; simp at h), fun h => by simp at h⟩
          rw [h0] at h
          injection h with h
          subst h
          exact ⟨fun h => absurd h hsig, fun _ => found_more (m := t.matchLen) hfd hsig hsr'⟩

theorem found_same {ts : MkvTracks} {mh : Nat → Bytes} {A : Nat → List (Nat × Bytes)} {x : Nat → Nat × Bytes} {done ps : List MkvPart}
    {s s' : MkvFind} (h : MkvFindInv ts mh A x done s) (hm : MainInv (done ++ ps) s'.mains s'.cur s'.strip) (ht : s'.tracks = s.tracks)
    (hb : ∀ b, .block b ∉ ps) : MkvFindInv ts mh A x (done ++ ps) s' := by
  refine ⟨hm, by rw [ht]; exact h.distinct, fun n t0 h0 => ?_, by rw [ht]; exact h.new⟩
  rw [ht, trackFrames_append, trackFrames_other n ps _ fun b hm => absurd hm (hb b), List.append_nil]
  exact h.old n t0 h0

/-- The elements whose elements are looked at by the search. -/
def findChildIds : List Bytes := [segmentId, blockGroupId, tracksId, trackEntryId, encodingsId, encodingId, compressionId, clusterId]

theorem findHow_leaf (s : MkvFind) (pos : Nat) (id size data : Bytes) : mkvFindHow s (MkvPart.elem pos (.leaf id size data)) =
    if id ∈ findChildIds then .child else if id ∈ [trackNumberId, codecId, compAlgoId, compSettingsId] then .read else .skip := by
  unfold findChildIds
  simp only [List.mem_cons, List.not_mem_nil, or_false]
  rfl

theorem findHow_enter (s : MkvFind) (pos : Nat) (id size : Bytes) : mkvFindHow s (MkvPart.elem pos (.enter id size)) =
    if id ∈ findChildIds then .child else if id ∈ [trackNumberId, codecId, compAlgoId, compSettingsId] then .read else .skip := by
  unfold findChildIds
  simp only [List.mem_cons, List.not_mem_nil, or_false]
  rfl

/-- A part, as the search sees it. -/
def FindPart (p : MkvPart) : Prop := match p with
  | .enter id _ => id ∈ findChildIds
  | .leaf id _ data => id ∉ findChildIds ∧ (id ∈ [trackNumberId, compAlgoId] → PlainUInt data)
  | .block _ => True

theorem find_suits {p : MkvPart} (h : FindPart p) (s : MkvFind) (pos : Nat) : EbmlSuits .mkv (mkvFindHow s (p.elem pos)) (p, true) := by
  cases p with
  | enter id size => rw [findHow_enter, if_pos (show id ∈ findChildIds from h)]; exact Or.inr rfl
  | leaf id size data =>
    rw [findHow_leaf, if_neg h.1]
    split
    · exact ⟨rfl, by simp, by simp⟩
    · exact Or.inl ⟨rfl, by simp, by simp⟩
  | block b =>
    show EbmlSuits .mkv (if (mkvTrackOf s.tracks b.track).search = true then EbmlHow.read else EbmlHow.skip) (.block b, true)
    split
    · exact ⟨rfl, by simp, by simp⟩
    · exact Or.inl ⟨rfl, by simp, by simp⟩

theorem findItem_other (s : MkvFind) {e : EbmlElem} (hb : e.block = none) (h : e.id ∉ [trackNumberId, codecId, compAlgoId, compSettingsId]) (data : Bytes) :
    mkvFindItem s e data = .ok (s, false) := by
  simp only [List.mem_cons, List.not_mem_nil, or_false, not_or] at h
  unfold mkvFindItem
  rw [hb]
  dsimp only
  rw [if_neg (show ¬ e.id = eTrackCodec from h.2.1), mainItem_other (by simp [h.1, h.2.2.1, h.2.2.2])]
  rfl

theorem findItem_codec (s : MkvFind) {e : EbmlElem} (hb : e.block = none) (h : e.id = codecId) (data : Bytes) (hm : (movGet s.mains s.cur).isSome = true) :
    mkvFindItem s e data = .ok (s, false) := by
  unfold mkvFindItem
  rw [hb]
  dsimp only
  rw [if_pos (show e.id = eTrackCodec from h), if_pos hm]

theorem findItem_main (s : MkvFind) {e : EbmlElem} (hb : e.block = none) (h : e.id ≠ codecId) {data : Bytes} {mains' : List (Nat × Bytes)} {cur' : Nat} {strip' : Bool}
    (hm : mkvMainItem s.mains s.cur s.strip e.id data = .ok (mains', cur', strip')) :
    mkvFindItem s e data = .ok ({ s with mains := mains', cur := cur', strip := strip' }, false) := by
  unfold mkvFindItem
  rw [hb]
  dsimp only
  rw [if_neg (show ¬ e.id = eTrackCodec from h), hm]
  rfl

theorem mkvFind_part {ts : MkvTracks} {parts : List MkvPart} {mh D : Nat → Bytes} {A B : Nat → List (Nat × Bytes)} {x : Nat → Nat × Bytes}
    (hc : CutTracks ts parts mh D A x B) {done rest : List MkvPart} {p : MkvPart} (hparts : parts = done ++ p :: rest) (hp : FindPart p)
    (hnum : p.id ∈ [compressionId, codecId, compAlgoId, compSettingsId] → ∃ size data, .leaf trackNumberId size data ∈ done)
    (hblock : ∀ b, p = .block b → Described done b.track ∧ (done.foldl stripStep {}).settings b.track = mh b.track)
    {s : MkvFind} (hi : MkvFindInv ts mh A x done s) :
    ∃ s' d, mkvFindItem s (p.elem (mkvBytes done).length) (ebmlSeen (mkvFindHow s (p.elem (mkvBytes done).length)) p) =
      .ok (s', d) ∧ MkvFindInv ts mh A x (done ++ [p]) s' ∧ (d = true → MkvFindEnd ts mh A x s') := by
  cases p with
  | enter id size =>
    have h1 : ∀ x ∈ findChildIds, x ∉ [trackNumberId, codecId, compAlgoId, compSettingsId] := by decide
    rw [findItem_other s rfl (show id ∉ _ from h1 _ hp)]
    refine ⟨s, false, rfl, found_same hi (mainInv_same hi.main ?_) rfl (by simp), by simp⟩
    intro p hp
    rw [List.mem_singleton.1 hp]
    exact ⟨fun _ => rfl, by simp⟩
  | leaf id size data =>
    rw [findHow_leaf, if_neg hp.1]
    by_cases hid : id ∈ [trackNumberId, codecId, compAlgoId, compSettingsId]
    · rw [if_pos hid, ebmlSeen, if_pos rfl]
      by_cases hco : id = codecId
      · subst hco
        have hn := hi.main.number (hnum (by simp [MkvPart.id]))
        refine ⟨s, false, ?_, found_same hi (mainInv_same hi.main ?_) rfl (by simp), by simp⟩
        · exact findItem_codec s (e := MkvPart.elem _ (.leaf codecId size data)) rfl rfl _ (by rw [hi.main.known _ hn]; rfl)
        · intro p hp
          rw [List.mem_singleton.1 hp]
          exact ⟨fun s => stripStep_other s (by decide), by intro sz d h; rw [MkvPart.leaf.injEq] at h; exact absurd h.1 (by decide)⟩
      · have hid' : id ∈ [trackNumberId, compAlgoId, compSettingsId] := by
          simp only [List.mem_cons, List.not_mem_nil, or_false] at hid ⊢
          rcases hid with h | h | h | h
          · exact Or.inl h
          · exact absurd h hco
          · exact Or.inr (Or.inl h)
          · exact Or.inr (Or.inr h)
        obtain ⟨mains', cur', strip', h1, h2⟩ := main_step (size := size) hi.main hid' hp.2 hnum
        refine ⟨{ s with mains := mains', cur := cur', strip := strip' }, false, ?_, found_same hi h2 rfl (by simp), by simp⟩
        exact findItem_main s (e := MkvPart.elem _ (.leaf id size data)) rfl hco h1
    · rw [if_neg hid, findItem_other s rfl (show id ∉ _ from hid)]
      refine ⟨s, false, rfl, found_same hi (mainInv_same hi.main ?_) rfl (by simp), by simp⟩
      intro p hp
      rw [List.mem_singleton.1 hp]
      simp only [List.mem_cons, List.not_mem_nil, or_false, not_or] at hid
      refine ⟨fun s => stripStep_other s (by simp [hid.1, hid.2.2.1, hid.2.2.2]), ?_⟩
      intro sz d h
      rw [MkvPart.leaf.injEq] at h
      exact hid.1 h.1
  | block b =>
    obtain ⟨h1, h2⟩ := hblock b rfl
    exact find_block hc hparts hi (by rw [hi.main.known _ h1, h2])

/-- Attachments are passed over. -/
def findWhole (_ : Nat) (t : MkvTop) : Bool := t.whole.id == attachmentsId

theorem findPart_top {t : MkvTop} (h : MovieTop t) (hw : findWhole 0 t = false) (hok : ∀ p ∈ t.fine, p.Ok) : ∀ p ∈ t.fine, FindPart p := by
  have aux : ∀ id size data, id ∉ specialIds → FindPart (.leaf id size data) := by
    intro id size data hid
    have aux : ∀ l : List Bytes, (∀ x ∈ l, x ∈ specialIds) → id ∉ l := fun l hl hm => hid (hl _ hm)
    exact ⟨aux _ (by decide), fun hm => absurd hm (aux _ (by decide))⟩
  intro p hp
  rcases h with ⟨id, size, data, rfl, hid⟩ | ⟨size, rfl⟩ | ⟨size, inner, rfl, hin⟩ | ⟨size, inner, rfl, hin⟩ | ⟨size, inner, rfl, hin⟩
  · rw [List.mem_singleton.1 hp]; exact aux _ _ _ hid
  · rw [List.mem_singleton.1 hp]; show segmentId ∈ _; decide
  · rcases List.mem_cons.1 hp with rfl | hp
    · show tracksId ∈ _; decide
    · rcases hin p hp with ⟨id, size, rfl, hid⟩ | ⟨id, size, data, rfl, hid⟩
      · have : ∀ x ∈ [trackEntryId, encodingsId, encodingId, compressionId], x ∈ findChildIds := by decide
        exact this _ hid
      · rcases hid with hid | hid | ⟨hid, hu⟩
        · exact aux _ _ _ hid
        · have : ∀ x ∈ [codecId, compSettingsId], x ∉ findChildIds ∧ x ∉ [trackNumberId, compAlgoId] := by decide
          exact ⟨(this _ hid).1, fun hm => absurd hm (this _ hid).2⟩
        · have : ∀ x ∈ [trackNumberId, compAlgoId], x ∉ findChildIds := by decide
          exact ⟨this _ hid, fun _ => hu⟩
  · exact absurd hw (by simp [findWhole, MkvTop.whole, MkvPart.id])
  · rcases List.mem_cons.1 hp with rfl | hp
    · show clusterId ∈ _; decide
    · rcases hin p hp with ⟨sz, rfl⟩ | ⟨id, sz, data, rfl, hid⟩ | ⟨b, rfl⟩
      · show blockGroupId ∈ _; decide
      · exact aux _ _ _ hid
      · trivial

theorem find_whole {t : MkvTop} (h : MovieTop t) (hw : findWhole 0 t = true) : ∃ size inner, t = .master attachmentsId size inner ∧
    ∀ p ∈ t.fine, (∀ s, stripStep s p = s) ∧ (∀ size data, p ≠ .leaf trackNumberId size data) ∧ ∀ b, p ≠ .block b := by
  have hw' : t.whole.id = attachmentsId := by simpa [findWhole] using hw
  rcases h with ⟨id, size, data, rfl, hid⟩ | ⟨size, rfl⟩ | ⟨size, inner, rfl, hin⟩ | ⟨size, inner, rfl, hin⟩ | ⟨size, inner, rfl, hin⟩
  · have : id = attachmentsId := hw'
    rw [this] at hid
    exact absurd hid (by decide)
  · exact absurd (show segmentId = attachmentsId from hw') (by decide)
  · exact absurd (show tracksId = attachmentsId from hw') (by decide)
  · refine ⟨size, inner, rfl, ?_⟩
    intro p hp
    rcases List.mem_cons.1 hp with rfl | hp
    · exact ⟨fun _ => rfl, by simp, by simp⟩
    · rcases hin p hp with ⟨sz, rfl⟩ | ⟨id, sz, data, rfl, hid⟩
      · exact ⟨fun _ => rfl, by simp, by simp⟩
      · have : id ∉ [trackNumberId, compAlgoId, compSettingsId] := by
          rcases hid with hid | hid
          · exact fun hm => hid ((show ∀ x ∈ [trackNumberId, compAlgoId, compSettingsId], x ∈ specialIds by decide) _ hm)
          · exact (show ∀ x ∈ [fileNameId, fileDataId], x ∉ [trackNumberId, compAlgoId, compSettingsId] by decide) _ hid
        refine ⟨fun s => stripStep_other s this, ?_, by simp⟩
        intro sz d e
        rw [MkvPart.leaf.injEq] at e
        exact this (by simp [e.1])
  · exact absurd (show clusterId = attachmentsId from hw') (by decide)

/-- The search finds the tracks where they are. -/
theorem mkvFind_ok {tops : List MkvTop} {ts : MkvTracks} {mh D : Nat → Bytes} {A B : Nat → List (Nat × Bytes)} {x : Nat → Nat × Bytes}
    (hm : MovieTops tops mh) (hc : CutTracks ts (mkvFine tops) mh D A x B) :
    ∃ tr, mkvFind ts (mkvFile tops) = .ok tr ∧ tr.Pairwise (fun a b => a.1 ≠ b.1) ∧
      (∀ n t0, movGet ts n = some t0 → ∃ t, movGet tr n = some t ∧ t.sig = t0.sig ∧ t.len = t0.len ∧ t.settings = t0.settings ∧
        (t0.sig ≠ [] → t.offset = (x n).1)) ∧
      ∀ n t, movGet tr n = some t → movGet ts n = none → t.sig = [] ∧ t.len = 0 := by
  have hsuit : SuitsAt .mkv mkvFindHow (mkvView findWhole 0 tops) 0 := by
    apply mkvView_suits
    intro t ht pos
    apply suitsAt_all
    intro y hy s pos'
    obtain ⟨p, hp, rfl⟩ := List.mem_map.1 hy
    cases hw : findWhole 0 t with
    | false =>
      rw [show findWhole pos t = false from hw, if_neg (by simp)] at hp
      exact find_suits (findPart_top (hm.kind t ht) hw (hm.ok t ht).2 p hp) s pos'
    | true =>
      rw [show findWhole pos t = true from hw, if_pos rfl] at hp
      rw [List.mem_singleton.1 hp]
      obtain ⟨size, inner, rfl, _⟩ := find_whole (hm.kind t ht) hw
      exact find_suits (p := .leaf attachmentsId size (mkvBytes inner)) ⟨by decide, fun h => absurd h (by decide)⟩ s pos'
  have hinit : MkvFindInv ts mh A x [] { tracks := ts } := by
    refine ⟨mainInv_nil, hc.distinct, ?_, ?_⟩
    · intro n t0 h0
      refine ⟨t0, h0, fun _ => rfl, fun hsig0 => ?_⟩
      have := hc.fresh n t0 h0
      refine ⟨rfl, rfl, rfl, fun _ => ?_, fun h => by simp [trackFrames] at h⟩
      rw [this.1, this.2.1]
      exact ⟨List.nil_prefix, List.length_pos_iff.2 (by assumption), rfl, [], [], rfl, rfl⟩
    · intro n t h h'
      dsimp only at h
      rw [h] at h'; simp at h'
  have hwalk : mkvWalk .mkv true mkvFindHow (mkvFile tops) mkvFindItem { tracks := ts } =
      mkvFold mkvFindHow mkvFindItem (mkvView findWhole 0 tops ++ []) 0 { tracks := ts } := by
    rw [List.append_nil, ← mkvWalk_at _ (mkvView_ok hm.ok) hsuit (by simp), mkvView_bytes]
    rfl
  have hend : ∃ s, mkvFold mkvFindHow mkvFindItem (mkvView findWhole 0 tops ++ []) 0 { tracks := ts } = .ok s ∧
      ∃ done, MkvFindInv ts mh A x done s ∧ ((∀ y ∈ s.tracks, y.2.len ≤ y.2.matchLen) ∨ done = mkvFine tops) := by
    have := mkvFold_view (how := mkvFindHow) (f := mkvFindItem) (I := MkvFindInv ts mh A x) (E := MkvFindEnd ts mh A x) (whole := findWhole)
      (tops := tops) (done := []) (s := { tracks := ts }) (more := []) ?_ ?_ hinit
    · rcases this with ⟨s, e, hi⟩ | ⟨s, e, done, hi, he⟩
      · exact ⟨s, e, _, hi, Or.inr rfl⟩
      · exact ⟨s, e, done, hi, Or.inl he⟩
    · intro ta t tb e hw a p b s ef hi
      rw [List.nil_append] at hi ⊢
      have hparts : mkvFine tops = (mkvFine ta ++ a) ++ p :: (b ++ mkvFine tb) := by
        rw [e, mkvFine_append, mkvFine_cons, ef]; simp
      have ht : t ∈ tops := by rw [e]; simp
      exact mkvFind_part hc hparts (findPart_top (hm.kind t ht) hw (hm.ok t ht).2 p (by rw [ef]; simp)) (hm.number _ _ _ hparts)
        (fun b' hb' => by subst hb'; exact hm.block _ _ _ hparts) hi
    · intro ta t tb s e hw hi
      rw [List.nil_append] at hi ⊢
      have ht : t ∈ tops := by rw [e]; simp
      obtain ⟨size, inner, rfl, h1⟩ := find_whole (hm.kind t ht) hw
      rw [findItem_other s rfl (by show attachmentsId ∉ _; decide)]
      exact ⟨s, false, rfl, found_same hi (mainInv_same hi.main fun p hp => ⟨(h1 p hp).1, (h1 p hp).2.1⟩) rfl
        fun b hb => absurd rfl ((h1 _ hb).2.2 b), by simp⟩
  obtain ⟨s, hs, done, hi, he⟩ := hend
  refine ⟨s.tracks, by unfold mkvFind; rw [hwalk, hs]; rfl, hi.distinct, ?_, fun n t h1 h2 => ⟨(hi.new n t h1 h2).1, (hi.new n t h1 h2).2.1⟩⟩
  intro n t0 h0
  obtain ⟨t, h1, h2, h3⟩ := hi.old n t0 h0
  refine ⟨t, h1, ?_⟩
  by_cases hsig : t0.sig = []
  · rw [h2 hsig]
    exact ⟨rfl, rfl, rfl, fun h => absurd hsig h⟩
  · have hf := h3 hsig
    refine ⟨hf.sigOf, hf.lenOf, hf.settings, fun _ => (hf.after ?_).1⟩
    rcases he with he | rfl
    · apply Nat.lt_of_not_le
      intro hle
      have h4 := hf.before hle
      have h5 := he (n, t) (movGet_eq_some h1)
      dsimp only at h5
      have h6 := (hc.fresh n t0 h0).2.2.2
      rw [hf.lenOf, h4.2.2.1] at h5
      have := h4.2.1
      omega
    · rw [(hc.cut n t0 h0 hsig).2]; simp

end Rescene
