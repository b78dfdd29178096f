import Verif.Lemmas.MkvTops
/-
Walking through a movie, and where its frames are.
-/
namespace Rescene
open Spec

/-- What is done with every item, at its position, leads behind it. -/
def SuitsAt {σ : Type} (mode : EbmlMode) (how : σ → EbmlElem → EbmlHow) : List MkvItem → Nat → Prop
  | [], _ => True
  | x :: l, pos => (∀ s, EbmlSuits mode (how s (x.1.elem pos)) x) ∧ SuitsAt mode how l (pos + x.bytes.length)

theorem suitsAt_append {σ : Type} {mode : EbmlMode} {how : σ → EbmlElem → EbmlHow} {a b : List MkvItem} : ∀ {pos : Nat},
    SuitsAt mode how a pos → SuitsAt mode how b (pos + (mkvItemsBytes a).length) → SuitsAt mode how (a ++ b) pos := by
  induction a with
  | nil => intro pos _ h; simpa [mkvItemsBytes] using h
  | cons x a ih =>
    intro pos h1 h2
    refine ⟨h1.1, ih h1.2 ?_⟩
    rw [mkvItemsBytes_cons, List.length_append] at h2
    rwa [Nat.add_assoc]

theorem suitsAt_all {σ : Type} {mode : EbmlMode} {how : σ → EbmlElem → EbmlHow} {a : List MkvItem}
    (h : ∀ x ∈ a, ∀ s pos, EbmlSuits mode (how s (x.1.elem pos)) x) : ∀ {pos : Nat}, SuitsAt mode how a pos := by
  induction a with
  | nil => intro pos; trivial
  | cons x a ih => intro pos; exact ⟨fun s => h x (by simp) s pos, ih fun y hy => h y (by simp [hy])⟩

theorem mkvLoop_at {σ : Type} {mode : EbmlMode} {again : Bool} {how : σ → EbmlElem → EbmlHow}
    {f : σ → EbmlElem → Bytes → Res (σ × Bool)} {l : List MkvItem} :
    ∀ (pre : Bytes) (s : σ) (fuel : Nat), (∀ x ∈ l, x.1.Ok) → SuitsAt mode how l pre.length → mode ≠ .sample → l.length < fuel →
      mkvLoop mode again how (pre ++ mkvItemsBytes l) f fuel pre.length s false = mkvFold how f l pre.length s := by
  induction l with
  | nil =>
    intro pre s fuel _ _ _ hfu
    cases fuel with
    | zero => simp at hfu
    | succ fuel =>
      rw [mkvLoop, ebmlRead, if_pos (by simp [mkvItemsBytes]), ok_bind]
      rfl
  | cons x l ih =>
    intro pre s fuel hok hsu hmode hfu
    cases fuel with
    | zero => simp at hfu
    | succ fuel =>
      have hx := hok x (by simp)
      rw [mkvLoop, mkvFold, mkvItemsBytes_cons, ebmlRead_item hx pre (mkvItemsBytes l) (fun hm => absurd hm hmode), ok_bind]
      dsimp only
      rw [if_neg (by simp), contents_item (hsu.1 s), ok_bind]
      dsimp only
      cases hf : f s (x.1.elem pre.length) (ebmlSeen (how s (x.1.elem pre.length)) x.1) with
      | error e => rfl
      | ok y =>
        obtain ⟨s', done⟩ := y
        rw [ok_bind, ok_bind]
        dsimp only
        cases done with
        | false =>
          rw [if_neg (by simp), if_neg (by simp)]
          have := ih (pre ++ x.bytes) s' fuel (fun q hq => hok q (by simp [hq])) (by rw [List.length_append]; exact hsu.2)
            hmode (by simp at hfu; omega)
          rw [List.append_assoc, List.length_append] at this
          exact this
        | true =>
          rw [if_pos rfl]
          split
          · rfl
          · cases fuel with
            | zero => simp at hfu
            | succ fuel =>
              rw [mkvLoop]
              cases l with
              | nil =>
                rw [ebmlRead, if_pos (by simp [mkvItemsBytes]), ok_bind]
              | cons y l =>
                have h := ebmlRead_item (mode := mode) (x := y) (hok y (by simp)) (pre ++ x.bytes) (mkvItemsBytes l) (fun hm => absurd hm hmode)
                rw [List.append_assoc, List.length_append, ← mkvItemsBytes_cons] at h
                rw [h, ok_bind]
                rfl

theorem mkvWalk_at {σ : Type} {mode : EbmlMode} {again : Bool} {how : σ → EbmlElem → EbmlHow}
    {f : σ → EbmlElem → Bytes → Res (σ × Bool)} {l : List MkvItem} (s : σ) (hok : ∀ x ∈ l, x.1.Ok)
    (hsu : SuitsAt mode how l 0) (hm : mode ≠ .sample) :
    mkvWalk mode again how (mkvItemsBytes l) f s = mkvFold how f l 0 s := by
  unfold mkvWalk
  have := mkvItems_count hok
  exact mkvLoop_at [] s _ hok hsu hm (by omega)

/-- How a program goes through a file: `whole` says which elements are taken as one, at a position. -/
def mkvView (whole : Nat → MkvTop → Bool) : Nat → List MkvTop → List MkvItem
  | _, [] => []
  | pos, t :: ts => (if whole pos t then [t.whole] else t.fine).map (fun p => (p, true)) ++
      mkvView whole (pos + (mkvBytes t.fine).length) ts

theorem mkvBytes_whole (t : MkvTop) : mkvBytes [t.whole] = mkvBytes t.fine := by
  cases t with
  | part p => rfl
  | master id size inner => simp [mkvBytes, MkvTop.whole, MkvTop.fine, MkvPart.bytes, MkvPart.head, MkvPart.data]

theorem mkvView_bytes (whole : Nat → MkvTop → Bool) : ∀ (tops : List MkvTop) (pos : Nat),
    mkvItemsBytes (mkvView whole pos tops) = mkvBytes (mkvFine tops)
  | [], _ => rfl
  | t :: ts, pos => by
    rw [mkvView, mkvFine_cons, mkvBytes_append, ← mkvView_bytes whole ts (pos + (mkvBytes t.fine).length)]
    have : mkvItemsBytes ((if whole pos t then [t.whole] else t.fine).map (fun p => (p, true))) = mkvBytes t.fine := by
      rw [itemsBytes_all]
      split
      · exact mkvBytes_whole t
      · rfl
    rw [← this]
    unfold mkvItemsBytes
    rw [List.flatMap_append]

theorem mkvView_ok {whole : Nat → MkvTop → Bool} : ∀ {tops : List MkvTop} {pos : Nat}, (∀ t ∈ tops, t.whole.Ok ∧ ∀ p ∈ t.fine, p.Ok) →
    ∀ x ∈ mkvView whole pos tops, x.1.Ok
  | [], _, _, x, hx => by simp [mkvView] at hx
  | t :: ts, pos, h, x, hx => by
    rw [mkvView] at hx
    rcases List.mem_append.1 hx with hx | hx
    · obtain ⟨p, hp, rfl⟩ := List.mem_map.1 hx
      split at hp
      · rw [List.mem_singleton.1 hp]; exact (h t (by simp)).1
      · exact (h t (by simp)).2 p hp
    · exact mkvView_ok (fun t ht => h t (by simp [ht])) x hx

theorem mkvView_suits {σ : Type} {mode : EbmlMode} {how : σ → EbmlElem → EbmlHow} {whole : Nat → MkvTop → Bool} :
    ∀ {tops : List MkvTop} {pos : Nat},
    (∀ t ∈ tops, ∀ pos, SuitsAt mode how ((if whole pos t then [t.whole] else t.fine).map (fun p => (p, true))) pos) →
    SuitsAt mode how (mkvView whole pos tops) pos
  | [], _, _ => trivial
  | t :: ts, pos, h => by
    rw [mkvView]
    refine suitsAt_append (h t (by simp) pos) ?_
    have : mkvItemsBytes ((if whole pos t then [t.whole] else t.fine).map (fun p => (p, true))) = mkvBytes t.fine := by
      rw [itemsBytes_all]
      split
      · exact mkvBytes_whole t
      · rfl
    rw [this]
    exact mkvView_suits fun t ht => h t (by simp [ht])

/-- Going through some parts: an invariant is kept, or the loop ends. -/
theorem mkvFold_parts {σ : Type} {how : σ → EbmlElem → EbmlHow} {f : σ → EbmlElem → Bytes → Res (σ × Bool)}
    {I : List MkvPart → σ → Prop} {E : σ → Prop} : ∀ {ps : List MkvPart} {done : List MkvPart} {s : σ} {more : List MkvItem},
    (∀ (a : List MkvPart) (p : MkvPart) (b : List MkvPart) (s : σ), ps = a ++ p :: b → I (done ++ a) s → ∃ s' d,
      f s (p.elem (mkvBytes (done ++ a)).length) (ebmlSeen (how s (p.elem (mkvBytes (done ++ a)).length)) p) = .ok (s', d) ∧
      I (done ++ a ++ [p]) s' ∧ (d = true → E s')) →
    I done s →
    (∃ s', mkvFold how f (ps.map (fun p => (p, true)) ++ more) (mkvBytes done).length s = mkvFold how f more (mkvBytes (done ++ ps)).length s' ∧ I (done ++ ps) s') ∨
    ∃ s', mkvFold how f (ps.map (fun p => (p, true)) ++ more) (mkvBytes done).length s = .ok s' ∧ E s'
  | [], done, s, more, _, hi => Or.inl ⟨s, by simp, by simpa using hi⟩
  | p :: ps, done, s, more, h, hi => by
    obtain ⟨s', d, h1, h2, h3⟩ := h [] p ps s rfl (by simpa using hi)
    simp only [List.append_nil] at h1 h2
    rw [List.map_cons, List.cons_append, mkvFold]
    dsimp only
    rw [h1, ok_bind]
    dsimp only
    cases d with
    | true => exact Or.inr ⟨s', by rw [if_pos rfl]; rfl, h3 rfl⟩
    | false =>
      rw [if_neg (by simp)]
      have hb : (mkvBytes done).length + (MkvItem.bytes (p, true)).length = (mkvBytes (done ++ [p])).length := by
        rw [mkvBytes_append, List.length_append]
        simp [MkvItem.bytes, mkvBytes, MkvPart.bytes]
      rw [hb]
      have := mkvFold_parts (ps := ps) (done := done ++ [p]) (s := s') (more := more) (fun a q b s e hI => by
        have := h (p :: a) q b s (by rw [e]; rfl) (by simpa using hI)
        simpa using this) h2
      simpa using this

/-- Going through a file: an invariant is kept, or the loop ends. -/
theorem mkvFold_view {σ : Type} {how : σ → EbmlElem → EbmlHow} {f : σ → EbmlElem → Bytes → Res (σ × Bool)}
    {I : List MkvPart → σ → Prop} {E : σ → Prop} {whole : Nat → MkvTop → Bool} :
    ∀ {tops : List MkvTop} {done : List MkvPart} {s : σ} {more : List MkvItem},
    (∀ ta t tb, tops = ta ++ t :: tb → whole (mkvBytes (done ++ mkvFine ta)).length t = false →
      ∀ (a : List MkvPart) (p : MkvPart) (b : List MkvPart) (s : σ), t.fine = a ++ p :: b → I (done ++ mkvFine ta ++ a) s → ∃ s' d,
        f s (p.elem (mkvBytes (done ++ mkvFine ta ++ a)).length) (ebmlSeen (how s (p.elem (mkvBytes (done ++ mkvFine ta ++ a)).length)) p) = .ok (s', d) ∧
        I (done ++ mkvFine ta ++ a ++ [p]) s' ∧ (d = true → E s')) →
    (∀ ta t tb s, tops = ta ++ t :: tb → whole (mkvBytes (done ++ mkvFine ta)).length t = true → I (done ++ mkvFine ta) s → ∃ s' d,
        f s (t.whole.elem (mkvBytes (done ++ mkvFine ta)).length) (ebmlSeen (how s (t.whole.elem (mkvBytes (done ++ mkvFine ta)).length)) t.whole) = .ok (s', d) ∧
        I (done ++ mkvFine ta ++ t.fine) s' ∧ (d = true → E s')) →
    I done s →
    (∃ s', mkvFold how f (mkvView whole (mkvBytes done).length tops ++ more) (mkvBytes done).length s =
      mkvFold how f more (mkvBytes (done ++ mkvFine tops)).length s' ∧ I (done ++ mkvFine tops) s') ∨
    ∃ s', mkvFold how f (mkvView whole (mkvBytes done).length tops ++ more) (mkvBytes done).length s = .ok s' ∧ E s'
  | [], done, s, more, _, _, hi => Or.inl ⟨s, by simp [mkvView, mkvFine], by simpa [mkvFine] using hi⟩
  | t :: ts, done, s, more, h1, h2, hi => by
    have hnil : mkvFine [] = [] := rfl
    have hpos : (mkvBytes done).length + (mkvBytes t.fine).length = (mkvBytes (done ++ t.fine)).length := by
      rw [mkvBytes_append, List.length_append]
    have next : ∀ s', I (done ++ t.fine) s' →
        (∃ s'', mkvFold how f (mkvView whole (mkvBytes (done ++ t.fine)).length ts ++ more) (mkvBytes (done ++ t.fine)).length s' =
          mkvFold how f more (mkvBytes (done ++ mkvFine (t :: ts))).length s'' ∧ I (done ++ mkvFine (t :: ts)) s'') ∨
        ∃ s'', mkvFold how f (mkvView whole (mkvBytes (done ++ t.fine)).length ts ++ more) (mkvBytes (done ++ t.fine)).length s' = .ok s'' ∧ E s'' := by
      intro s' hi'
      have := mkvFold_view (tops := ts) (done := done ++ t.fine) (s := s') (more := more) (whole := whole) (how := how) (f := f) (I := I) (E := E)
        (fun ta u tb e hw a p b s ef hI => by
          have := h1 (t :: ta) u tb (by rw [e]; rfl) (by rw [mkvFine_cons, ← List.append_assoc]; exact hw) a p b s ef
            (by rw [mkvFine_cons, ← List.append_assoc]; exact hI)
          rw [mkvFine_cons, ← List.append_assoc] at this
          exact this)
        (fun ta u tb s e hw hI => by
          have := h2 (t :: ta) u tb s (by rw [e]; rfl) (by rw [mkvFine_cons, ← List.append_assoc]; exact hw)
            (by rw [mkvFine_cons, ← List.append_assoc]; exact hI)
          rw [mkvFine_cons, ← List.append_assoc] at this
          exact this) hi'
      rw [mkvFine_cons, ← List.append_assoc]
      exact this
    rw [mkvView, hpos, List.append_assoc]
    cases hw : whole (mkvBytes done).length t with
    | false =>
      rw [if_neg (by simp)]
      have := mkvFold_parts (how := how) (f := f) (I := I) (E := E) (ps := t.fine) (done := done) (s := s)
        (more := mkvView whole (mkvBytes (done ++ t.fine)).length ts ++ more) (fun a p b s e hI => by
          have := h1 [] t ts rfl (by rw [hnil, List.append_nil]; exact hw) a p b s e (by rw [hnil, List.append_nil]; exact hI)
          rw [hnil, List.append_nil] at this
          exact this) hi
      rcases this with ⟨s', e, hi'⟩ | ⟨s', e, he⟩
      · rw [e]; exact next s' hi'
      · exact Or.inr ⟨s', e, he⟩
    | true =>
      rw [if_pos rfl]
      obtain ⟨s', d, e, hi', he⟩ := h2 [] t ts s rfl (by rw [hnil, List.append_nil]; exact hw) (by rw [hnil, List.append_nil]; exact hi)
      rw [hnil, List.append_nil] at e hi'
      rw [List.map_cons, List.map_nil, List.cons_append, List.nil_append, mkvFold]
      dsimp only
      rw [e, ok_bind]
      dsimp only
      cases d with
      | true => exact Or.inr ⟨s', by rw [if_pos rfl]; rfl, he rfl⟩
      | false =>
        rw [if_neg (by simp)]
        have hb : (mkvBytes done).length + (MkvItem.bytes (t.whole, true)).length = (mkvBytes (done ++ t.fine)).length := by
          rw [mkvBytes_append, List.length_append, ← mkvBytes_whole]
          simp [MkvItem.bytes, mkvBytes, MkvPart.bytes]
        rw [hb]
        exact next s' hi'

theorem mkvView_append (whole : Nat → MkvTop → Bool) (b : List MkvTop) : ∀ (a : List MkvTop) (pos : Nat),
    mkvView whole pos (a ++ b) = mkvView whole pos a ++ mkvView whole (pos + (mkvBytes (mkvFine a)).length) b
  | [], pos => by simp [mkvView, mkvFine, mkvBytes]
  | t :: a, pos => by
    rw [List.cons_append, mkvView, mkvView, mkvView_append whole b a, List.append_assoc, mkvFine_cons, mkvBytes_append,
      List.length_append, Nat.add_assoc]

/-! ### Where frames are -/

/-- Frames one after the other. -/
def framesAt : Nat → List Bytes → List (Nat × Bytes)
  | _, [] => []
  | pos, f :: fs => (pos, f) :: framesAt (pos + f.length) fs

/-- The frames of a track, with their positions. -/
def trackFrames (n : Nat) : Nat → List MkvPart → List (Nat × Bytes)
  | _, [] => []
  | pos, .block b :: ps => (if b.track = n then framesAt (pos + (MkvPart.block b).head.length) b.frames else []) ++
      trackFrames n (pos + (MkvPart.block b).bytes.length) ps
  | pos, p :: ps => trackFrames n (pos + p.bytes.length) ps

theorem mkvBytes_cons (p : MkvPart) (ps : List MkvPart) : mkvBytes (p :: ps) = p.bytes ++ mkvBytes ps := by simp [mkvBytes]

theorem framesAt_snd : ∀ (fs : List Bytes) (pos : Nat), (framesAt pos fs).map (·.2) = fs
  | [], _ => rfl
  | f :: fs, pos => by rw [framesAt, List.map_cons, framesAt_snd fs]

theorem framesAt_append : ∀ (a b : List Bytes) (pos : Nat), framesAt pos (a ++ b) = framesAt pos a ++ framesAt (pos + a.flatten.length) b
  | [], b, pos => by simp [framesAt]
  | f :: a, b, pos => by
    rw [List.cons_append, framesAt, framesAt_append a b, framesAt, List.cons_append, List.flatten_cons, List.length_append, Nat.add_assoc]

theorem trackFrames_append (n : Nat) : ∀ (a b : List MkvPart) (pos : Nat),
    trackFrames n pos (a ++ b) = trackFrames n pos a ++ trackFrames n (pos + (mkvBytes a).length) b
  | [], b, pos => by simp [trackFrames, mkvBytes]
  | .enter id size :: a, b, pos => by
    rw [List.cons_append, trackFrames, trackFrames, trackFrames_append n a b, mkvBytes_cons, List.length_append, Nat.add_assoc]
    all_goals simp
  | .leaf id size data :: a, b, pos => by
    rw [List.cons_append, trackFrames, trackFrames, trackFrames_append n a b, mkvBytes_cons, List.length_append, Nat.add_assoc]
    all_goals simp
  | .block c :: a, b, pos => by
    rw [List.cons_append, trackFrames, trackFrames, trackFrames_append n a b, mkvBytes_cons, List.length_append, Nat.add_assoc, List.append_assoc]

theorem trackFrames_snd (n : Nat) : ∀ (ps : List MkvPart) (pos : Nat), (trackFrames n pos ps).map (·.2) = mkvTrackFrames ps n
  | [], _ => rfl
  | .enter id size :: a, pos => by
    rw [trackFrames, trackFrames_snd n a]
    · simp [mkvTrackFrames]
    · simp
  | .leaf id size data :: a, pos => by
    rw [trackFrames, trackFrames_snd n a]
    · simp [mkvTrackFrames]
    · simp
  | .block c :: a, pos => by
    rw [trackFrames, List.map_append, trackFrames_snd n a]
    unfold mkvTrackFrames
    rw [List.flatMap_cons]
    congr 1
    dsimp only
    split
    · exact framesAt_snd _ _
    · rfl

/-- Frames are between their start and the end of the parts they are in. -/
theorem framesAt_bounds : ∀ (fs : List Bytes) (pos : Nat), (∀ x ∈ framesAt pos fs, pos ≤ x.1 ∧ x.1 + x.2.length ≤ pos + fs.flatten.length) ∧
    (framesAt pos fs).Pairwise fun a b => a.1 + a.2.length ≤ b.1
  | [], pos => ⟨by simp [framesAt], List.Pairwise.nil⟩
  | f :: fs, pos => by
    obtain ⟨h1, h2⟩ := framesAt_bounds fs (pos + f.length)
    rw [framesAt, List.flatten_cons, List.length_append]
    refine ⟨?_, List.pairwise_cons.2 ⟨fun x hx => (h1 x hx).1, h2⟩⟩
    intro x hx
    rcases List.mem_cons.1 hx with rfl | hx
    · dsimp only; omega
    · have := h1 x hx; omega

theorem trackFrames_bounds (n : Nat) : ∀ (ps : List MkvPart) (pos : Nat),
    (∀ x ∈ trackFrames n pos ps, pos ≤ x.1 ∧ x.1 + x.2.length ≤ pos + (mkvBytes ps).length) ∧
    (trackFrames n pos ps).Pairwise fun a b => a.1 + a.2.length ≤ b.1
  | [], pos => ⟨by simp [trackFrames], List.Pairwise.nil⟩
  | .enter id size :: a, pos => by
    obtain ⟨h1, h2⟩ := trackFrames_bounds n a (pos + (MkvPart.enter id size).bytes.length)
    rw [trackFrames, mkvBytes_cons, List.length_append]
    · exact ⟨fun x hx => by have := h1 x hx; omega, h2⟩
    · simp
  | .leaf id size data :: a, pos => by
    obtain ⟨h1, h2⟩ := trackFrames_bounds n a (pos + (MkvPart.leaf id size data).bytes.length)
    rw [trackFrames, mkvBytes_cons, List.length_append]
    · exact ⟨fun x hx => by have := h1 x hx; omega, h2⟩
    · simp
  | .block c :: a, pos => by
    obtain ⟨h1, h2⟩ := trackFrames_bounds n a (pos + (MkvPart.block c).bytes.length)
    obtain ⟨h3, h4⟩ := framesAt_bounds c.frames (pos + (MkvPart.block c).head.length)
    have hb : (MkvPart.block c).bytes.length = (MkvPart.block c).head.length + c.frames.flatten.length := by
      simp [MkvPart.bytes, MkvPart.data, MkvBlock.data]
    rw [trackFrames, mkvBytes_cons, List.length_append]
    split
    · constructor
      · intro x hx
        rcases List.mem_append.1 hx with hx | hx
        · have := h3 x hx; omega
        · have := h1 x hx; omega
      · refine List.pairwise_append.2 ⟨h4, h2, ?_⟩
        intro x hx y hy
        have := h3 x hx
        have := h1 y hy
        omega
    · rw [List.nil_append]
      exact ⟨fun x hx => by have := h1 x hx; omega, h2⟩

end Rescene
