import Verif.Lemmas.MkvFind
/-
Extracting the frames of the tracks from a movie.
-/
namespace Rescene
open Spec

theorem piece_recut {mh sh f : Bytes} (h : mh = sh ∨ sh = [] ∨ (mh = [] ∧ sh <+: f)) (a b : Bytes) :
    mkvPiece mh sh (a ++ (f ++ b)) a.length f.length = recut mh sh f := by
  have hall : pySlice (a ++ (f ++ b)) (a.length : Int) ((a.length : Int) + f.length) = f := by
    have := pySlice_mid a f b 0 f.length (by omega)
    simpa using this
  unfold mkvPiece recut
  by_cases hs : sh = []
  · subst hs
    rw [if_neg (by simp)]
    simp [hall]
  · rcases h with h | h | ⟨h, hf⟩
    · subst h
      rw [if_pos ⟨hs, hs⟩, if_pos rfl, hall]
      simp
    · exact absurd h hs
    · subst h
      rw [if_neg (by simp)]
      have h1 := hf.length_le
      have := pySlice_mid a f b sh.length (f.length - sh.length) (by omega)
      rw [show ((a.length + sh.length + (f.length - sh.length) : Nat) : Int) = (a.length : Int) + f.length by omega,
        show ((a.length + sh.length : Nat) : Int) = (a.length : Int) + sh.length by omega] at this
      rw [this, List.nil_append, List.nil_append, List.take_of_length_le (by rw [List.length_drop]; omega)]

/-- What is written of a track: `G` are the frames that were seen. -/
def MkvWritten (mh sh D : Bytes) (A : List (Nat × Bytes)) (x : Nat × Bytes) (B G : List (Nat × Bytes)) (out : Bytes) : Prop :=
  (G.length ≤ A.length → out = []) ∧
  (A.length < G.length → out <+: ((x :: B).map fun f => recut mh sh f.2).flatten ∧
    (D.length ≤ out.length ∨ out = ((G.drop A.length).map fun f => recut mh sh f.2).flatten))

/-- The order of the frames in a file. -/
structure Ordered (F : List (Nat × Bytes)) : Prop where
  order : F.Pairwise fun a b => a.1 + a.2.length ≤ b.1
  full : ∀ f ∈ F, f.2 ≠ []

theorem order_before {A B a b : List (Nat × Bytes)} {x f : Nat × Bytes} (ho : Ordered (A ++ x :: B)) (h : A = a ++ f :: b) : f.1 < x.1 := by
  have h1 := (List.pairwise_append.1 ho.order).2.2 f (by rw [h]; simp) x (by simp)
  have h2 := List.length_pos_iff.2 (ho.full f (by rw [h]; simp))
  omega

theorem order_after {A B a b : List (Nat × Bytes)} {x f : Nat × Bytes} (ho : Ordered (A ++ x :: B)) (h : x :: B = a ++ f :: b) : x.1 ≤ f.1 := by
  have hf : f ∈ x :: B := by rw [h]; simp
  rcases List.mem_cons.1 hf with rfl | hf
  · exact Nat.le_refl _
  · have := (List.pairwise_cons.1 (List.pairwise_append.1 ho.order).2.1).1 f hf
    omega

theorem written_frame {sig mh sh D : Bytes} {A B : List (Nat × Bytes)} {x : Nat × Bytes} (hc : CutAt sig mh sh D A x B) (ho : Ordered (A ++ x :: B))
    {G rest : List (Nat × Bytes)} {q : Nat} {f : Bytes} (hG : A ++ x :: B = G ++ (q, f) :: rest) {out : Bytes} (hw : MkvWritten mh sh D A x B G out)
    (a b : Bytes) (base : Int) (hq : base + a.length = q) :
    MkvWritten mh sh D A x B (G ++ [(q, f)])
      (if base + a.length ≥ (x.1 : Int) ∧ (out.length : Int) < D.length then out ++ mkvPiece mh sh (a ++ (f ++ b)) a.length f.length else out) := by
  have hstrip : mh = sh ∨ sh = [] ∨ (mh = [] ∧ sh <+: f) := by
    rcases hc.strip with h | h | ⟨h1, h2⟩
    · exact Or.inl h
    · exact Or.inr (Or.inl h)
    · exact Or.inr (Or.inr ⟨h1, h2 (q, f) (by rw [hG]; simp)⟩)
  rw [piece_recut hstrip, hq]
  have hD : 0 < D.length := by
    have h1 := hc.sigOf.length_le
    have h2 := List.length_pos_iff.2 hc.sig1
    omega
  rcases cut_append hG with ⟨b', hA, _⟩ | ⟨a', hA, hx⟩
  · -- before
    have hlt := order_before ho hA
    dsimp only at hlt
    have hl : (G ++ [(q, f)]).length ≤ A.length := by rw [hA]; simp
    have hl' : G.length ≤ A.length := by rw [List.length_append] at hl; omega
    rw [if_neg (by omega)]
    exact ⟨fun _ => hw.1 hl', fun h => by omega⟩
  · have hge := order_after ho hx
    dsimp only at hge
    refine ⟨fun h => by rw [hA] at h; simp at h; omega, fun _ => ?_⟩
    have hall : ((x :: B).map fun f => recut mh sh f.2).flatten =
        (a'.map fun f => recut mh sh f.2).flatten ++ (recut mh sh f ++ (rest.map fun f => recut mh sh f.2).flatten) := by
      rw [hx]; simp
    have hdrop : ((G ++ [(q, f)]).drop A.length).map (fun f => recut mh sh f.2) = a'.map (fun f => recut mh sh f.2) ++ [recut mh sh f] := by
      rw [hA, List.append_assoc, List.drop_left]; simp
    have hold : out <+: ((x :: B).map fun f => recut mh sh f.2).flatten ∧ (D.length ≤ out.length ∨ out = (a'.map fun f => recut mh sh f.2).flatten) := by
      cases a' with
      | nil =>
        have := hw.1 (by rw [hA]; simp)
        subst this
        exact ⟨List.nil_prefix, Or.inr rfl⟩
      | cons y a' =>
        have := hw.2 (by rw [hA]; simp)
        rw [hA, List.drop_left] at this
        exact this
    by_cases hlen : (out.length : Int) < D.length
    · rw [if_pos ⟨by omega, hlen⟩]
      rcases hold.2 with h | h
      · omega
      · rw [h]
        refine ⟨?_, Or.inr ?_⟩
        · rw [hall, ← List.append_assoc]
          exact List.prefix_append _ _
        · rw [hdrop]; simp
    · rw [if_neg (fun h => hlen h.2)]
      exact ⟨hold.1, Or.inl (by omega)⟩

theorem written_frames {sig mh sh D : Bytes} {A B : List (Nat × Bytes)} {x : Nat × Bytes} (hc : CutAt sig mh sh D A x B) (ho : Ordered (A ++ x :: B))
    {t : MkvTrack} (hto : t.offset = x.1) (htl : t.len = D.length)
    {rest : List (Nat × Bytes)} (base : Int) : ∀ {fs : List Bytes} {G : List (Nat × Bytes)} {q : Nat} {out : Bytes} (a : Bytes),
    A ++ x :: B = G ++ (framesAt q fs ++ rest) → MkvWritten mh sh D A x B G out → base + a.length = q →
    MkvWritten mh sh D A x B (G ++ framesAt q fs)
      (mkvWriteFrames t base mh sh (a ++ fs.flatten) out a.length (fs.map fun f => (f.length : Int)))
  | [], G, q, out, a, _, hw, _ => by simpa [framesAt, mkvWriteFrames] using hw
  | f :: fs, G, q, out, a, hG, hw, hq => by
    rw [framesAt, List.cons_append] at hG
    have h1 := written_frame hc ho hG hw a fs.flatten base hq
    have h2 := written_frames hc ho hto htl (rest := rest) base (fs := fs) (q := q + f.length) (a ++ f) (by rw [hG]; simp) h1
      (by rw [List.length_append]; omega)
    rw [framesAt, List.map_cons, mkvWriteFrames, List.flatten_cons, hto, htl]
    rw [List.append_assoc, List.append_assoc] at h2
    rw [List.length_append, Int.natCast_add] at h2
    exact h2

/-- Frames that end before the start are passed over. -/
theorem written_before {mh sh D : Bytes} {A B : List (Nat × Bytes)} {x : Nat × Bytes} (ho : Ordered (A ++ x :: B))
    {G F rest : List (Nat × Bytes)} (hG : A ++ x :: B = G ++ (F ++ rest)) {out : Bytes} (hw : MkvWritten mh sh D A x B G out)
    (hF : ∀ f ∈ F, f.1 + f.2.length ≤ x.1) : MkvWritten mh sh D A x B (G ++ F) out := by
  rcases List.eq_nil_or_concat F with rfl | ⟨F', f, rfl⟩
  · simpa using hw
  · have hG' : A ++ x :: B = (G ++ F') ++ f :: rest := by rw [hG]; simp
    rcases cut_append hG' with ⟨b', hA, _⟩ | ⟨a', hA, hx⟩
    · have hl : (G ++ (F' ++ [f])).length ≤ A.length := by rw [hA]; simp
      have hl' : G.length ≤ A.length := by rw [List.length_append] at hl; omega
      rw [List.concat_eq_append]
      exact ⟨fun _ => hw.1 hl', fun h => by omega⟩
    · have h1 := order_after ho hx
      have h2 := hF f (by simp)
      have h3 := List.length_pos_iff.2 (ho.full f (by rw [hG']; simp))
      omega

/-- The tracks after the search, and where they are in a movie. -/
structure ExTracks (tr : MkvTracks) (parts : List MkvPart) (mh : Nat → Bytes) (D : Nat → Bytes) (A : Nat → List (Nat × Bytes))
    (x : Nat → Nat × Bytes) (B : Nat → List (Nat × Bytes)) : Prop where
  cut : ∀ n t, movGet tr n = some t → t.sig ≠ [] → CutAt t.sig (mh n) t.settings (D n) (A n) (x n) (B n) ∧
    trackFrames n 0 parts = A n ++ x n :: B n ∧ Ordered (A n ++ x n :: B n) ∧ t.offset = (x n).1 ∧ t.len = (D n).length

/-- The state of the extraction. -/
structure MkvExInv (tr : MkvTracks) (mh D : Nat → Bytes) (A : Nat → List (Nat × Bytes)) (x : Nat → Nat × Bytes) (B : Nat → List (Nat × Bytes))
    (done : List MkvPart) (s : MkvExtract) : Prop where
  main : MainInv done s.mains s.cur s.strip
  files : ∀ n t, movGet tr n = some t → t.sig ≠ [] → MkvWritten (mh n) t.settings (D n) (A n) (x n) (B n) (trackFrames n 0 done) ((s.files n).getD [])
  att : s.att = lastName none done
  named : ∀ n, s.att = some n → (attachGet s.atts n).isSome = true
  got : ∀ n d, attachGet s.atts n = some (some d) ↔ (some n, d) ∈ attachments none done

/-- The extraction may end. -/
def MkvExEnd (tr : MkvTracks) (parts : List MkvPart) (mh D : Nat → Bytes) (A : Nat → List (Nat × Bytes)) (x : Nat → Nat × Bytes)
    (B : Nat → List (Nat × Bytes)) (s : MkvExtract) : Prop :=
  ∃ a b c, parts = a ++ .block b :: c ∧ MkvExInv tr mh D A x B (a ++ [.block b]) s ∧
    ∀ y ∈ tr, ∃ d, s.files y.1 = some d ∧ y.2.len ≤ (d.length : Int)

theorem lastName_quiet {ps : List MkvPart} (h : ∀ p ∈ ps, NoFile p) (name : Option Bytes) : lastName name ps = name := by
  induction ps with
  | nil => rfl
  | cons p a ih =>
    have h2 := ih fun q hq => h q (by simp [hq])
    cases p with
    | enter => exact h2
    | leaf id size data =>
      rw [lastName, if_neg (by rintro rfl; exact (h _ (by simp) size data).1 rfl)]
      exact h2
    | block b => exact h2

/-- Parts with no blocks and no attached files. -/
theorem ex_same {tr : MkvTracks} {mh D : Nat → Bytes} {A : Nat → List (Nat × Bytes)} {x : Nat → Nat × Bytes} {B : Nat → List (Nat × Bytes)}
    {done ps : List MkvPart} {s s' : MkvExtract} (h : MkvExInv tr mh D A x B done s) (hm : MainInv (done ++ ps) s'.mains s'.cur s'.strip)
    (hf : s'.files = s.files) (ha : s'.att = s.att) (haa : s'.atts = s.atts)
    (hb : ∀ b, .block b ∉ ps) (hn : ∀ p ∈ ps, NoFile p) : MkvExInv tr mh D A x B (done ++ ps) s' := by
  refine ⟨hm, fun n t h0 hs => ?_, ?_, ?_, ?_⟩
  · rw [hf, trackFrames_append, trackFrames_other n ps _ fun b hm => absurd hm (hb b), List.append_nil]
    exact h.files n t h0 hs
  · rw [ha, (attachments_append _ _ _).2, lastName_quiet hn]; exact h.att
  · rw [ha, haa]; exact h.named
  · rw [haa, (attachments_append _ _ _).1, attachments_none hn, List.append_nil]; exact h.got

theorem ex_block {tr : MkvTracks} {parts : List MkvPart} {mh D : Nat → Bytes} {A B : Nat → List (Nat × Bytes)} {x : Nat → Nat × Bytes}
    (hc : ExTracks tr parts mh D A x B) {done rest : List MkvPart} {b : MkvBlock} (hparts : parts = done ++ .block b :: rest) {start : Nat}
    {s : MkvExtract} (hi : MkvExInv tr mh D A x B done s) (hmain : movGet s.mains b.track = some (mh b.track)) :
    ∃ s' d, mkvExtractItem tr s (MkvPart.elem (mkvBytes done).length (.block b)) (ebmlSeen (mkvExtractHow tr start s (MkvPart.elem (mkvBytes done).length (.block b))) (.block b)) =
      .ok (s', d) ∧ MkvExInv tr mh D A x B (done ++ [.block b]) s' ∧ (d = true → MkvExEnd tr parts mh D A x B s') := by
  have hmain' : MainInv (done ++ [.block b]) s.mains s.cur s.strip := mainInv_same hi.main (by
    intro p hp
    rw [List.mem_singleton.1 hp]
    exact ⟨fun _ => rfl, by simp⟩)
  have hno : ∀ p ∈ [MkvPart.block b], NoFile p := by
    intro p hp
    rw [List.mem_singleton.1 hp]
    intro _ _; simp
  have upd : ∀ files : TrackFiles, (∀ n, n ≠ b.track → files n = s.files n) → (∀ t, movGet tr b.track = some t → t.sig ≠ [] →
      MkvWritten (mh b.track) t.settings (D b.track) (A b.track) (x b.track) (B b.track)
        (trackFrames b.track 0 done ++ framesAt ((mkvBytes done).length + (MkvPart.block b).head.length) b.frames) ((files b.track).getD [])) →
      MkvExInv tr mh D A x B (done ++ [.block b]) { s with files := files } := by
    intro files h1 h2
    refine ⟨hmain', ?_, ?_, ?_, ?_⟩
    · intro n t ht hs
      dsimp only
      rw [trackFrames_append, trackFrames_block, Nat.zero_add]
      by_cases hn : n = b.track
      · subst hn
        rw [if_pos rfl]
        exact h2 t ht hs
      · rw [if_neg (fun h => hn h.symm), List.append_nil, h1 n hn]
        exact hi.files n t ht hs
    · rw [(attachments_append _ _ _).2, lastName_quiet hno]; exact hi.att
    · exact hi.named
    · rw [(attachments_append _ _ _).1, attachments_none hno, List.append_nil]; exact hi.got
  have hitem : ∀ buff, mkvExtractItem tr s (MkvPart.elem (mkvBytes done).length (.block b)) buff =
      mkvBlockExtract tr s (MkvPart.elem (mkvBytes done).length (.block b)) b.info buff := fun _ => rfl
  rw [hitem]
  have hbase : (((MkvPart.elem (mkvBytes done).length (.block b)).start : Nat) : Int) +
      (MkvPart.elem (mkvBytes done).length (.block b)).header.length + b.info.head.length =
      (((mkvBytes done).length + (MkvPart.block b).head.length : Nat) : Int) := by
    simp [MkvPart.elem, MkvPart.head, MkvBlock.info]
    omega
  have hm : movGet s.mains b.info.track = some (mh b.track) := hmain
  cases h0 : movGet tr b.track with
  | none =>
    refine ⟨s, false, ?_, upd s.files (fun _ _ => rfl) (fun t h => by rw [h0] at h; simp at h), by simp⟩
    unfold mkvBlockExtract
    rw [show movGet tr b.info.track = none from h0]
  | some t =>
    have h0' : movGet tr b.info.track = some t := h0
    have hG : ∀ hs : t.sig ≠ [], A b.track ++ x b.track :: B b.track = trackFrames b.track 0 done ++
        (framesAt ((mkvBytes done).length + (MkvPart.block b).head.length) b.frames ++
          trackFrames b.track ((mkvBytes done).length + (MkvPart.block b).bytes.length) rest) := by
      intro hs
      rw [← (hc.cut _ t h0 hs).2.1, hparts, trackFrames_append, trackFrames, if_pos rfl, Nat.zero_add]
    by_cases hw : mkvWanted t (MkvPart.elem (mkvBytes done).length (.block b)) b.info = true
    · have hseen : ebmlSeen (mkvExtractHow tr start s (MkvPart.elem (mkvBytes done).length (.block b))) (.block b) = b.data := by
        have : mkvExtractHow tr start s (MkvPart.elem (mkvBytes done).length (.block b)) = .read := by
          unfold mkvExtractHow
          rw [show (MkvPart.elem (mkvBytes done).length (.block b)).block = some b.info from rfl]
          dsimp only
          rw [h0']
          dsimp only
          rw [if_pos ⟨by rw [hm]; rfl, hw⟩]
        rw [this, ebmlSeen, if_pos rfl]
        rfl
      rw [hseen]
      have hI := upd (s.files.set b.track (mkvWriteFrames t ((mkvBytes done).length + (MkvPart.block b).head.length : Nat) (mh b.track) t.settings b.data
        ((s.files b.track).getD []) 0 b.info.frames)) (fun n hn => by simp [TrackFiles.set, hn]) (fun t' h' hs => by
          rw [h0] at h'
          injection h' with h'
          subst h'
          obtain ⟨h1, h2, h3, h4, h5⟩ := hc.cut _ t h0 hs
          have := written_frames h1 h3 h4 h5 (base := ((mkvBytes done).length + (MkvPart.block b).head.length : Nat)) [] (hG hs) (hi.files _ t h0 hs) (by simp)
          simp only [TrackFiles.set, if_pos, Option.getD_some]
          rw [List.nil_append] at this
          exact this)
      have he : mkvBlockExtract tr s (MkvPart.elem (mkvBytes done).length (.block b)) b.info b.data =
          .ok ({ s with files := s.files.set b.track (mkvWriteFrames t ((mkvBytes done).length + (MkvPart.block b).head.length : Nat) (mh b.track) t.settings b.data
            ((s.files b.track).getD []) 0 b.info.frames) }, tr.all fun x =>
          match (s.files.set b.track (mkvWriteFrames t ((mkvBytes done).length + (MkvPart.block b).head.length : Nat) (mh b.track) t.settings b.data
            ((s.files b.track).getD []) 0 b.info.frames)) x.1 with
          | none => false
          | some d => decide (x.2.len ≤ (d.length : Int))) := by
        unfold mkvBlockExtract
        rw [h0']
        dsimp only
        rw [hm]
        dsimp only
        rw [if_pos hw, hbase]
        rfl
      refine ⟨_, _, he, hI, ?_⟩
      intro hd
      refine ⟨done, b, rest, hparts, hI, ?_⟩
      intro y hy
      have := List.all_eq_true.1 hd y hy
      dsimp only at this ⊢
      revert this
      cases s.files.set b.track (mkvWriteFrames t ((mkvBytes done).length + (MkvPart.block b).head.length : Nat) (mh b.track) t.settings b.data
            ((s.files b.track).getD []) 0 b.info.frames) y.1 with
      | none => intro h; simp at h
      | some d => intro h; exact ⟨d, rfl, by simpa using h⟩
    · refine ⟨s, false, ?_, upd s.files (fun _ _ => rfl) ?_, by simp⟩
      · unfold mkvBlockExtract
        rw [h0']
        dsimp only
        rw [hm]
        dsimp only
        rw [if_neg hw]
      · intro t' h' hs
        rw [h0] at h'
        injection h' with h'
        subst h'
        obtain ⟨h1, h2, h3, h4, h5⟩ := hc.cut _ t h0 hs
        refine written_before h3 (hG hs) (hi.files _ t h0 hs) ?_
        intro f hf
        have h6 := ((framesAt_bounds _ _).1 f hf).2
        unfold mkvWanted at hw
        rw [hbase, h4] at hw
        have hlen : (MkvPart.elem (mkvBytes done).length (.block b)).length = (b.frames.flatten.length : Int) := rfl
        rw [hlen] at hw
        simp only [gt_iff_lt, decide_eq_true_eq] at hw
        omega

/-- The elements whose elements are looked at when extracting, beside clusters. -/
def exChildIds : List Bytes :=
  [segmentId, blockGroupId, tracksId, trackEntryId, encodingsId, encodingId, compressionId, attachmentsId, attachedFileId]

def exReadIds : List Bytes := [trackNumberId, compAlgoId, compSettingsId, fileNameId, fileDataId]

theorem exHow_plain (tr : MkvTracks) (start : Nat) (s : MkvExtract) (e : EbmlElem) (hb : e.block = none) : mkvExtractHow tr start s e =
    if e.id = clusterId then if (e.start : Int) + e.header.length + e.length < start then .skip else .child
    else if e.id ∈ exChildIds then .child else if e.id ∈ exReadIds then .read else .skip := by
  unfold exChildIds exReadIds mkvExtractHow
  rw [hb]
  simp only [List.mem_cons, List.not_mem_nil, or_false]
  rfl

/-- A part, as extraction sees it. -/
def ExPart (p : MkvPart) : Prop := match p with
  | .enter id _ => id ∈ exChildIds
  | .leaf id _ data => id ∉ exChildIds ∧ id ≠ clusterId ∧ (id ∈ [trackNumberId, compAlgoId] → PlainUInt data)
  | .block _ => True

theorem ex_suits {p : MkvPart} (h : ExPart p) (tr : MkvTracks) (start : Nat) (s : MkvExtract) (pos : Nat) :
    EbmlSuits .mkv (mkvExtractHow tr start s (p.elem pos)) (p, true) := by
  cases p with
  | enter id size =>
    have h1 : ∀ y ∈ exChildIds, y ≠ clusterId := by decide
    rw [exHow_plain _ _ _ _ rfl, if_neg (show (MkvPart.elem pos (.enter id size)).id ≠ clusterId from h1 _ h),
      if_pos (show (MkvPart.elem pos (.enter id size)).id ∈ exChildIds from h)]
    exact Or.inr rfl
  | leaf id size data =>
    rw [exHow_plain _ _ _ _ rfl, if_neg (show ¬ (MkvPart.elem pos (.leaf id size data)).id = clusterId from h.2.1),
      if_neg (show ¬ (MkvPart.elem pos (.leaf id size data)).id ∈ exChildIds from h.1)]
    split
    · exact ⟨rfl, by simp, by simp⟩
    · exact Or.inl ⟨rfl, by simp, by simp⟩
  | block b =>
    unfold mkvExtractHow
    rw [show (MkvPart.elem pos (.block b)).block = some b.info from rfl]
    dsimp only
    cases movGet tr b.info.track with
    | none => exact Or.inl ⟨rfl, by simp, by simp⟩
    | some t =>
      dsimp only
      split
      · exact ⟨rfl, by simp, by simp⟩
      · exact Or.inl ⟨rfl, by simp, by simp⟩

theorem exItem_main (tr : MkvTracks) (s : MkvExtract) {e : EbmlElem} (hb : e.block = none) (h1 : e.id ≠ fileNameId) (h2 : e.id ≠ fileDataId)
    {data : Bytes} {mains' : List (Nat × Bytes)} {cur' : Nat} {strip' : Bool}
    (hm : mkvMainItem s.mains s.cur s.strip e.id data = .ok (mains', cur', strip')) :
    mkvExtractItem tr s e data = .ok ({ s with mains := mains', cur := cur', strip := strip' }, false) := by
  unfold mkvExtractItem
  rw [hb]
  dsimp only
  rw [if_neg (show ¬ e.id = eAttachName from h1), if_neg (show ¬ e.id = eAttachData from h2), hm]
  rfl

theorem exItem_other (tr : MkvTracks) (s : MkvExtract) {e : EbmlElem} (hb : e.block = none) (h : e.id ∉ exReadIds) (data : Bytes) :
    mkvExtractItem tr s e data = .ok (s, false) := by
  unfold exReadIds at h
  simp only [List.mem_cons, List.not_mem_nil, or_false, not_or] at h
  exact exItem_main tr s hb h.2.2.2.1 h.2.2.2.2 (mainItem_other (by simp [h.1, h.2.1, h.2.2.1]))

theorem exItem_name (tr : MkvTracks) (s : MkvExtract) {e : EbmlElem} (hb : e.block = none) (h : e.id = fileNameId) (data : Bytes) :
    mkvExtractItem tr s e data =
      .ok ({ s with att := some data, atts := if (attachGet s.atts data).isSome then s.atts else attachPut s.atts data none }, false) := by
  unfold mkvExtractItem
  rw [hb]
  dsimp only
  rw [if_pos (show e.id = eAttachName from h)]

theorem exItem_data (tr : MkvTracks) (s : MkvExtract) {e : EbmlElem} (hb : e.block = none) (h : e.id = fileDataId) (data : Bytes) {n : Bytes}
    (ha : s.att = some n) (hg : attachGet s.atts n = some none) :
    mkvExtractItem tr s e data = .ok ({ s with atts := attachPut s.atts n (some data) }, false) := by
  unfold mkvExtractItem
  rw [hb]
  dsimp only
  rw [if_neg (by rw [h]; decide), if_pos (show e.id = eAttachData from h), ha]
  dsimp only
  rw [hg]

theorem ex_part {tr : MkvTracks} {parts : List MkvPart} {mh D : Nat → Bytes} {A B : Nat → List (Nat × Bytes)} {x : Nat → Nat × Bytes}
    (hc : ExTracks tr parts mh D A x B) {start : Nat} {done rest : List MkvPart} {p : MkvPart} (hparts : parts = done ++ p :: rest)
    (hp : ExPart p ∨ ∃ size, p = .enter clusterId size)
    (hnames : ∃ l : List (Bytes × Bytes), attachments none parts = l.map (fun x => (some x.1, x.2)) ∧ l.Pairwise fun a b => a.1 ≠ b.1)
    (hnum : p.id ∈ [compressionId, codecId, compAlgoId, compSettingsId] → ∃ size data, .leaf trackNumberId size data ∈ done)
    (hblock : ∀ b, p = .block b → Described done b.track ∧ (done.foldl stripStep {}).settings b.track = mh b.track)
    {s : MkvExtract} (hi : MkvExInv tr mh D A x B done s) :
    ∃ s' d, mkvExtractItem tr s (p.elem (mkvBytes done).length) (ebmlSeen (mkvExtractHow tr start s (p.elem (mkvBytes done).length)) p) =
      .ok (s', d) ∧ MkvExInv tr mh D A x B (done ++ [p]) s' ∧ (d = true → MkvExEnd tr parts mh D A x B s') := by
  cases p with
  | enter id size =>
    have hid : id ∉ exReadIds := by
      rcases hp with hp | ⟨sz, hp⟩
      · exact (show ∀ x ∈ exChildIds, x ∉ exReadIds by decide) _ hp
      · rw [MkvPart.enter.injEq] at hp
        rw [hp.1]; decide
    rw [exItem_other tr s rfl (show (MkvPart.elem _ (.enter id size)).id ∉ _ from hid)]
    refine ⟨s, false, rfl, ex_same hi (mainInv_same hi.main ?_) rfl rfl rfl (by simp) ?_, by simp⟩
    · intro p hp
      rw [List.mem_singleton.1 hp]
      exact ⟨fun _ => rfl, by simp⟩
    · intro p hp
      rw [List.mem_singleton.1 hp]
      intro _ _; simp
  | leaf id size data =>
    have hp : ExPart (.leaf id size data) := by
      rcases hp with hp | ⟨sz, hp⟩
      · exact hp
      · simp at hp
    have hhow : mkvExtractHow tr start s (MkvPart.elem (mkvBytes done).length (.leaf id size data)) = if id ∈ exReadIds then .read else .skip := by
      rw [exHow_plain _ _ _ _ rfl, if_neg (show ¬ (MkvPart.elem _ (.leaf id size data)).id = clusterId from hp.2.1),
        if_neg (show ¬ (MkvPart.elem _ (.leaf id size data)).id ∈ exChildIds from hp.1)]
      rfl
    rw [hhow]
    have hmem : ∀ {P : Prop}, (id ≠ trackNumberId → id ≠ compAlgoId → id ≠ compSettingsId → P) → (id ∈ [trackNumberId, compAlgoId, compSettingsId] → P) → P := by
      intro P h1 h2
      by_cases h : id ∈ [trackNumberId, compAlgoId, compSettingsId]
      · exact h2 h
      · simp only [List.mem_cons, List.not_mem_nil, or_false, not_or] at h
        exact h1 h.1 h.2.1 h.2.2
    by_cases hn : id = fileNameId
    · subst hn
      rw [if_pos (by decide), ebmlSeen, if_pos rfl, exItem_name tr s rfl rfl]
      refine ⟨_, false, rfl, ?_, by simp⟩
      have hl : (attachments none (done ++ [MkvPart.leaf fileNameId size data]) = attachments none done) ∧
          lastName none (done ++ [MkvPart.leaf fileNameId size data]) = some data := by
        obtain ⟨h1, h2⟩ := attachments_append [MkvPart.leaf fileNameId size data] done none
        rw [h1, h2, attachments, if_pos rfl, lastName, if_pos rfl]
        exact ⟨by simp [attachments], rfl⟩
      refine ⟨mainInv_same hi.main ?_, ?_, ?_, ?_, ?_⟩
      · intro p hp
        rw [List.mem_singleton.1 hp]
        exact ⟨fun s => stripStep_other s (by decide), by intro sz d h; rw [MkvPart.leaf.injEq] at h; exact absurd h.1 (by decide)⟩
      · intro n t h0 hs
        rw [trackFrames_append, trackFrames_other n [_] _ fun b hm => by simp at hm, List.append_nil]
        exact hi.files n t h0 hs
      · rw [hl.2]; rfl
      · intro n h
        injection h with h
        have h : data = n := h
        subst h
        dsimp only
        split
        · assumption
        · rw [attachGet_put, if_pos (show data = (MkvPart.leaf fileNameId size data).data from rfl)]; rfl
      · intro n d
        rw [hl.1, ← hi.got]
        dsimp only
        split
        · exact Iff.rfl
        · rename_i h
          rw [show (MkvPart.leaf fileNameId size data).data = data from rfl] at h ⊢
          rw [attachGet_put]
          split
          · rename_i e
            subst e
            constructor
            · intro h; simp at h
            · intro h2; rw [h2] at h; simp at h
          · exact Iff.rfl
    · by_cases hd : id = fileDataId
      · subst hd
        rw [if_pos (by decide), ebmlSeen, if_pos rfl]
        obtain ⟨l, hl1, hl2⟩ := hnames
        have happ : attachments none parts = attachments none done ++ (lastName none done, data) :: attachments (lastName none done) rest := by
          rw [hparts, (attachments_append _ _ _).1]
          congr 1
        have hsome : ∃ n, lastName none done = some n := by
          have hm : (lastName none done, data) ∈ attachments none parts := by rw [happ]; simp
          rw [hl1] at hm
          obtain ⟨y, _, e⟩ := List.mem_map.1 hm
          exact ⟨y.1, by injection e with e1 e2; exact e1.symm⟩
        obtain ⟨n, hnn⟩ := hsome
        have hatt : s.att = some n := by rw [hi.att, hnn]
        have hget : attachGet s.atts n = some none := by
          have h1 := hi.named n hatt
          cases hg : attachGet s.atts n with
          | none => rw [hg] at h1; simp at h1
          | some o =>
            cases o with
            | none => rfl
            | some d =>
              exfalso
              have h2 := (hi.got n d).1 hg
              have h3 : (attachments none parts).Pairwise fun a b => a.1 ≠ b.1 := by
                rw [hl1, List.pairwise_map]
                exact hl2.imp fun h e => h (Option.some.inj e)
              rw [happ] at h3
              exact (List.pairwise_append.1 h3).2.2 _ h2 (lastName none done, data) (by simp) hnn.symm
        rw [exItem_data tr s rfl rfl _ hatt hget]
        have hl : (attachments none (done ++ [MkvPart.leaf fileDataId size data]) = attachments none done ++ [(some n, data)]) ∧
            lastName none (done ++ [MkvPart.leaf fileDataId size data]) = lastName none done := by
          obtain ⟨h1, h2⟩ := attachments_append [MkvPart.leaf fileDataId size data] done none
          rw [h1, h2, hnn]
          exact ⟨rfl, rfl⟩
        refine ⟨_, false, rfl, ?_, by simp⟩
        refine ⟨mainInv_same hi.main ?_, ?_, ?_, ?_, ?_⟩
        · intro p hp
          rw [List.mem_singleton.1 hp]
          exact ⟨fun s => stripStep_other s (by decide), by intro sz d h; rw [MkvPart.leaf.injEq] at h; exact absurd h.1 (by decide)⟩
        · intro n t h0 hs
          rw [trackFrames_append, trackFrames_other n [_] _ fun b hm => by simp at hm, List.append_nil]
          exact hi.files n t h0 hs
        · rw [hl.2]; exact hi.att
        · intro m h
          have h : s.att = some m := h
          dsimp only
          rw [attachGet_put]
          split
          · rfl
          · exact hi.named m h
        · intro m d
          dsimp only
          rw [hl.1, attachGet_put, List.mem_append, ← hi.got]
          split
          · rename_i e
            subst e
            rw [hget]
            constructor
            · intro h
              injection h with h
              injection h with h
              subst h
              exact Or.inr (by simp [MkvPart.data])
            · rintro (h | h)
              · simp at h
              · rw [List.mem_singleton] at h
                injection h with _ h
                rw [h]; rfl
          · rename_i e
            constructor
            · exact Or.inl
            · rintro (h | h)
              · exact h
              · rw [List.mem_singleton] at h
                injection h with h _
                injection h with h
                exact absurd h e
      · have hno : ∀ p ∈ [MkvPart.leaf id size data], NoFile p := by
          intro p hp
          rw [List.mem_singleton.1 hp]
          intro sz d
          rw [ne_eq, ne_eq, MkvPart.leaf.injEq, MkvPart.leaf.injEq]
          exact ⟨fun h => hn h.1, fun h => hd h.1⟩
        apply hmem
        · intro h1 h2 h3
          have hid : id ∉ exReadIds := by simp [exReadIds, h1, h2, h3, hn, hd]
          rw [if_neg hid, exItem_other tr s rfl (show (MkvPart.elem _ (.leaf id size data)).id ∉ _ from hid)]
          refine ⟨s, false, rfl, ex_same hi (mainInv_same hi.main ?_) rfl rfl rfl (by simp) hno, by simp⟩
          intro p hp
          rw [List.mem_singleton.1 hp]
          refine ⟨fun s => stripStep_other s (by simp [h1, h2, h3]), ?_⟩
          intro sz d h
          rw [MkvPart.leaf.injEq] at h
          exact h1 h.1
        · intro hid
          have hid2 : id ∈ exReadIds := (show ∀ x ∈ [trackNumberId, compAlgoId, compSettingsId], x ∈ exReadIds by decide) _ hid
          rw [if_pos hid2, ebmlSeen, if_pos rfl]
          obtain ⟨mains', cur', strip', h1, h2⟩ := main_step (size := size) hi.main hid hp.2.2 hnum
          refine ⟨{ s with mains := mains', cur := cur', strip := strip' }, false, ?_, ex_same hi h2 rfl rfl rfl (by simp) hno, by simp⟩
          exact exItem_main tr s (e := MkvPart.elem _ (.leaf id size data)) rfl hn hd h1
  | block b =>
    obtain ⟨h1, h2⟩ := hblock b rfl
    exact ex_block hc hparts hi (by rw [hi.main.known _ h1, h2])

/-- Clusters before the start are passed over. -/
def exWhole (start pos : Nat) : MkvTop → Bool
  | .master id size inner => id == clusterId && decide (pos + (id ++ size).length + (mkvBytes inner).length < start)
  | _ => false

theorem exPart_plain {id size data : Bytes} (hid : id ∉ specialIds) : ExPart (.leaf id size data) := by
  have aux : ∀ l : List Bytes, (∀ x ∈ l, x ∈ specialIds) → id ∉ l := fun l hl hm => hid (hl _ hm)
  exact ⟨aux _ (by decide), fun e => aux [clusterId] (by decide) (by simp [e]), fun hm => absurd hm (aux _ (by decide))⟩

theorem exPart_top {t : MkvTop} (h : MovieTop t) : (∀ p ∈ t.fine, ExPart p) ∨
    ∃ size inner, t = .master clusterId size inner ∧ (∀ p ∈ inner, ExPart p) ∧ ∀ p ∈ t.fine, NoFile p ∧ ∀ s, stripStep s p = s := by
  rcases h with ⟨id, size, data, rfl, hid⟩ | ⟨size, rfl⟩ | ⟨size, inner, rfl, hin⟩ | ⟨size, inner, rfl, hin⟩ | hcl
  · left
    intro p hp
    rw [List.mem_singleton.1 hp]; exact exPart_plain hid
  · left
    intro p hp
    rw [List.mem_singleton.1 hp]; show segmentId ∈ _; decide
  · left
    intro p hp
    rcases List.mem_cons.1 hp with rfl | hp
    · show tracksId ∈ _; decide
    · rcases hin p hp with ⟨id, size, rfl, hid⟩ | ⟨id, size, data, rfl, hid⟩
      · have : ∀ x ∈ [trackEntryId, encodingsId, encodingId, compressionId], x ∈ exChildIds := by decide
        exact this _ hid
      · rcases hid with hid | hid | ⟨hid, hu⟩
        · exact exPart_plain hid
        · have : ∀ x ∈ [codecId, compSettingsId], x ∉ exChildIds ∧ x ≠ clusterId ∧ x ∉ [trackNumberId, compAlgoId] := by decide
          exact ⟨(this _ hid).1, (this _ hid).2.1, fun hm => absurd hm (this _ hid).2.2⟩
        · have : ∀ x ∈ [trackNumberId, compAlgoId], x ∉ exChildIds ∧ x ≠ clusterId := by decide
          exact ⟨(this _ hid).1, (this _ hid).2, fun _ => hu⟩
  · left
    intro p hp
    rcases List.mem_cons.1 hp with rfl | hp
    · show attachmentsId ∈ _; decide
    · rcases hin p hp with ⟨sz, rfl⟩ | ⟨id, sz, data, rfl, hid⟩
      · show attachedFileId ∈ _; decide
      · rcases hid with hid | hid
        · exact exPart_plain hid
        · have : ∀ x ∈ [fileNameId, fileDataId], x ∉ exChildIds ∧ x ≠ clusterId ∧ x ∉ [trackNumberId, compAlgoId] := by decide
          exact ⟨(this _ hid).1, (this _ hid).2.1, fun hm => absurd hm (this _ hid).2.2⟩
  · right
    have hno := noFile_cluster hcl
    obtain ⟨size, inner, rfl, hin⟩ := hcl
    refine ⟨size, inner, rfl, ?_, ?_⟩
    · intro p hp
      rcases hin p hp with ⟨sz, rfl⟩ | ⟨id, sz, data, rfl, hid⟩ | ⟨b, rfl⟩
      · show blockGroupId ∈ _; decide
      · exact exPart_plain hid
      · trivial
    · intro p hp
      refine ⟨hno p hp, ?_⟩
      rcases List.mem_cons.1 hp with rfl | hp
      · exact fun _ => rfl
      · rcases hin p hp with ⟨sz, rfl⟩ | ⟨id, sz, data, rfl, hid⟩ | ⟨b, rfl⟩
        · exact fun _ => rfl
        · exact (plain_calm hid).1
        · exact fun _ => rfl

theorem exWhole_fine {t : MkvTop} (h : ∀ p ∈ t.fine, ExPart p) (start pos : Nat) : exWhole start pos t = false := by
  cases t with
  | part p => rfl
  | master id size inner =>
    have := h (.enter id size) (by simp [MkvTop.fine])
    have hne : id ≠ clusterId := (show ∀ x ∈ exChildIds, x ≠ clusterId by decide) _ this
    simp [exWhole, hne]

theorem mkvStart_le {tr : MkvTracks} {n : Nat} {t : MkvTrack} (h : (n, t) ∈ tr) (ht : 0 < t.offset) : (mkvStart tr : Int) ≤ t.offset := by
  have mono : ∀ (l : MkvTracks) (m : Nat), l.foldl (fun m t => if t.2.offset > 0 then min t.2.offset.toNat m else m) m ≤ m := by
    intro l
    induction l with
    | nil => intro m; exact Nat.le_refl _
    | cons y l ih =>
      intro m
      rw [List.foldl_cons]
      refine Nat.le_trans (ih _) ?_
      split <;> omega
  have : ∀ (l : MkvTracks) (m : Nat), (n, t) ∈ l → l.foldl (fun m t => if t.2.offset > 0 then min t.2.offset.toNat m else m) m ≤ t.offset.toNat := by
    intro l
    induction l with
    | nil => intro m h; simp at h
    | cons y l ih =>
      intro m h
      rw [List.foldl_cons]
      rcases List.mem_cons.1 h with rfl | h
      · refine Nat.le_trans (mono _ _) ?_
        rw [if_pos ht]
        dsimp only
        omega
      · exact ih _ h
  have := this tr (2 ^ 63) h
  unfold mkvStart
  omega

/-- Extraction gets the data of the tracks and the attached files. -/
theorem mkvExtract_ok {tops : List MkvTop} {tr : MkvTracks} {mh D : Nat → Bytes} {A B : Nat → List (Nat × Bytes)} {x : Nat → Nat × Bytes}
    (hm : MovieTops tops mh) (hc : ExTracks tr (mkvFine tops) mh D A x B) (hin : ∀ id size inner, .master id size inner ∈ tops →
      IsVint size.length (mkvBytes inner).length size) :
    ∃ files atts, mkvExtract tr (mkvFile tops) = .ok (files, atts) ∧
      (∀ n t, movGet tr n = some t → t.sig ≠ [] → ∃ more, files n = some (D n ++ more)) ∧
      ∀ n d, (some n, d) ∈ attachments none (mkvFine tops) → attachGet atts n = some (some d) := by
  have hsuit : SuitsAt .mkv (mkvExtractHow tr (mkvStart tr)) (mkvView (exWhole (mkvStart tr)) 0 tops) 0 := by
    apply mkvView_suits
    intro t ht pos
    rcases exPart_top (hm.kind t ht) with h | ⟨size, inner, rfl, h1, h2⟩
    · rw [exWhole_fine h, if_neg (by simp)]
      apply suitsAt_all
      intro y hy s pos'
      obtain ⟨p, hp, rfl⟩ := List.mem_map.1 hy
      exact ex_suits (h p hp) tr _ s pos'
    · by_cases hlt : pos + (clusterId ++ size).length + (mkvBytes inner).length < mkvStart tr
      · rw [show exWhole (mkvStart tr) pos (.master clusterId size inner) = true by simp only [exWhole, beq_self_eq_true, Bool.true_and, decide_eq_true hlt],
          if_pos rfl]
        refine ⟨fun s => ?_, trivial⟩
        dsimp only
        rw [exHow_plain _ _ _ _ rfl, if_pos (show (MkvPart.elem pos (MkvTop.master clusterId size inner).whole).id = clusterId from rfl), if_pos]
        · exact Or.inl ⟨rfl, by simp [MkvTop.whole], by simp⟩
        · show ((pos : Nat) : Int) + ((clusterId ++ size).length : Int) + ((mkvBytes inner).length : Int) < _
          omega
      · rw [show exWhole (mkvStart tr) pos (.master clusterId size inner) = false by
            simp only [exWhole, beq_self_eq_true, Bool.true_and, decide_eq_false hlt], if_neg (by simp), MkvTop.fine, List.map_cons]
        refine ⟨fun s => ?_, ?_⟩
        · dsimp only
          rw [exHow_plain _ _ _ _ rfl, if_pos (show (MkvPart.elem pos (MkvPart.enter clusterId size)).id = clusterId from rfl), if_neg]
          · exact Or.inr rfl
          · show ¬ (((pos : Nat) : Int) + ((clusterId ++ size).length : Int) + ((numberVal size : Nat) : Int) < _)
            rw [numberVal_of_vint (hin _ _ _ ht)]
            omega
        · apply suitsAt_all
          intro y hy s pos'
          obtain ⟨p, hp, rfl⟩ := List.mem_map.1 hy
          exact ex_suits (h1 p hp) tr _ s pos'
  have hinit : MkvExInv tr mh D A x B [] {} := by
    refine ⟨mainInv_nil, ?_, rfl, ?_, ?_⟩
    · intro n t h0 hs
      exact ⟨fun _ => rfl, fun h => by simp [trackFrames] at h⟩
    · intro n h; simp at h
    · intro n d; simp [attachGet, attachments]
  have hwalk : mkvWalk .mkv true (mkvExtractHow tr (mkvStart tr)) (mkvFile tops) (mkvExtractItem tr) {} =
      mkvFold (mkvExtractHow tr (mkvStart tr)) (mkvExtractItem tr) (mkvView (exWhole (mkvStart tr)) 0 tops ++ []) 0 {} := by
    rw [List.append_nil, ← mkvWalk_at _ (mkvView_ok hm.ok) hsuit (by simp), mkvView_bytes]
    rfl
  have hend := mkvFold_view (how := mkvExtractHow tr (mkvStart tr)) (f := mkvExtractItem tr) (I := MkvExInv tr mh D A x B)
    (E := MkvExEnd tr (mkvFine tops) mh D A x B) (whole := exWhole (mkvStart tr)) (tops := tops) (done := []) (s := {}) (more := []) (by
      intro ta t tb e hw a p b s ef hi
      rw [List.nil_append] at hi ⊢
      have hparts : mkvFine tops = (mkvFine ta ++ a) ++ p :: (b ++ mkvFine tb) := by
        rw [e, mkvFine_append, mkvFine_cons, ef]; simp
      have ht : t ∈ tops := by rw [e]; simp
      refine ex_part hc hparts ?_ hm.names (hm.number _ _ _ hparts) (fun b' hb' => by subst hb'; exact hm.block _ _ _ hparts) hi
      have hp : p ∈ t.fine := by rw [ef]; simp
      rcases exPart_top (hm.kind t ht) with h | ⟨size, inner, rfl, h1, h2⟩
      · exact Or.inl (h p hp)
      · rcases List.mem_cons.1 hp with rfl | hp
        · exact Or.inr ⟨size, rfl⟩
        · exact Or.inl (h1 p hp)) (by
      intro ta t tb s e hw hi
      rw [List.nil_append] at hi hw ⊢
      have ht : t ∈ tops := by rw [e]; simp
      rcases exPart_top (hm.kind t ht) with h | ⟨size, inner, rfl, h1, h2⟩
      · rw [exWhole_fine h] at hw; simp at hw
      · rw [exItem_other tr s rfl (by show clusterId ∉ _; decide)]
        refine ⟨s, false, rfl, ⟨mainInv_same hi.main ?_, ?_, ?_, hi.named, ?_⟩, by simp⟩
        · intro p hp
          refine ⟨(h2 p hp).2, ?_⟩
          rcases List.mem_cons.1 hp with rfl | hp
          · simp
          · have hx := h1 p hp
            intro sz d e
            subst e
            have h3 := (h2 _ (List.mem_cons_of_mem _ hp)).2 { cur := ofBe d + 1 }
            rw [stripStep_leaf, if_pos rfl] at h3
            have h4 : ofBe d = ofBe d + 1 := congrArg StripState.cur h3
            omega
        · intro n t0 h0 hs
          obtain ⟨h3, h4, h5, h6, h7⟩ := hc.cut n t0 h0 hs
          have hG : A n ++ x n :: B n = trackFrames n 0 (mkvFine ta) ++
              (trackFrames n (mkvBytes (mkvFine ta)).length (MkvTop.master clusterId size inner).fine ++
               trackFrames n ((mkvBytes (mkvFine ta)).length + (mkvBytes (MkvTop.master clusterId size inner).fine).length) (mkvFine tb)) := by
            rw [← h4, e, mkvFine_append, mkvFine_cons, trackFrames_append, trackFrames_append, Nat.zero_add]
          rw [trackFrames_append, Nat.zero_add]
          refine written_before h5 hG (hi.files n t0 h0 hs) ?_
          intro f hf
          have h8 := ((trackFrames_bounds n _ _).1 f hf).2
          have h9 : (mkvStart tr : Int) ≤ t0.offset := mkvStart_le (movGet_eq_some h0) (by rw [h6]; have := h3.pos; omega)
          simp only [exWhole, beq_self_eq_true, Bool.true_and, decide_eq_true_eq] at hw
          have h10 : (mkvBytes (MkvTop.master clusterId size inner).fine).length = (clusterId ++ size).length + (mkvBytes inner).length := by
            rw [← mkvBytes_whole]
            simp [mkvBytes, MkvTop.whole, MkvPart.bytes, MkvPart.head, MkvPart.data, Nat.add_assoc]
          omega
        · rw [(attachments_append _ _ _).2, lastName_quiet fun p hp => (h2 p hp).1]; exact hi.att
        · rw [(attachments_append _ _ _).1, attachments_none fun p hp => (h2 p hp).1, List.append_nil]; exact hi.got) hinit
  rw [List.nil_append] at hend
  have hfin : ∃ s, mkvFold (mkvExtractHow tr (mkvStart tr)) (mkvExtractItem tr) (mkvView (exWhole (mkvStart tr)) 0 tops ++ []) 0 {} = .ok s ∧
      ∃ done, MkvExInv tr mh D A x B done s ∧ attachments none done = attachments none (mkvFine tops) ∧
        ((∀ y ∈ tr, ∃ d, s.files y.1 = some d ∧ y.2.len ≤ (d.length : Int)) ∨ done = mkvFine tops) := by
    rcases hend with ⟨s, e, hi⟩ | ⟨s, e, a, b, c, hp, hi, he⟩
    · exact ⟨s, e, _, hi, rfl, Or.inr rfl⟩
    · refine ⟨s, e, _, hi, ?_, Or.inl he⟩
      rw [(attachments_append _ _ _).1, hm.attach a b c hp]
      simp [attachments]
  obtain ⟨s, hs, done, hi, hat, he⟩ := hfin
  refine ⟨s.files, s.atts, by unfold mkvExtract; rw [hwalk, hs]; rfl, ?_, fun n d h => (hi.got n d).2 (by rw [hat]; exact h)⟩
  intro n t h0 hsig
  obtain ⟨h3, h4, h5, h6, h7⟩ := hc.cut n t h0 hsig
  have hD : 0 < (D n).length := by
    have h1 := h3.sigOf.length_le
    have h2 := List.length_pos_iff.2 h3.sig1
    omega
  have hw := hi.files n t h0 hsig
  have hout : (s.files n).getD [] <+: ((x n :: B n).map fun f => recut (mh n) t.settings f.2).flatten ∧ (D n).length ≤ ((s.files n).getD []).length := by
    rcases he with he | rfl
    · obtain ⟨d, hd1, hd2⟩ := he (n, t) (movGet_eq_some h0)
      dsimp only at hd1 hd2
      rw [hd1, Option.getD_some] at hw ⊢
      have hlt : (A n).length < (trackFrames n 0 done).length := by
        apply Nat.lt_of_not_le
        intro hle
        rw [hw.1 hle] at hd2
        simp only [List.length_nil] at hd2
        omega
      exact ⟨(hw.2 hlt).1, by omega⟩
    · rw [h4] at hw
      obtain ⟨h8, h9⟩ := hw.2 (by simp)
      refine ⟨h8, ?_⟩
      rcases h9 with h9 | h9
      · exact h9
      · rw [h9, List.drop_left]
        exact h3.data.length_le
  obtain ⟨h8, h9⟩ := hout
  obtain ⟨more, hmore⟩ := List.prefix_of_prefix_length_le h3.data h8 h9
  refine ⟨more, ?_⟩
  rw [hmore]
  cases hg : s.files n with
  | none =>
    rw [hg, Option.getD_none, List.length_nil] at h9
    omega
  | some d => rfl

end Rescene
