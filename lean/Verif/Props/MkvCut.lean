import Verif.Lemmas.MkvExtract
import Verif.Props.Mkv
/-
C66: MKV samples are rebuilt from the movie they were cut from.
-/
namespace Rescene.Props
open Rescene Rescene.Spec

theorem framesAt_pos : ∀ (fs : List Bytes) (pos : Nat), ∀ x ∈ framesAt pos fs, pos ≤ x.1 := fun fs pos x hx => ((framesAt_bounds fs pos).1 x hx).1

theorem trackFrames_pos (n : Nat) : ∀ (ps : List MkvPart) (pos : Nat), ∀ x ∈ trackFrames n pos ps, pos < x.1
  | [], _, x, hx => by simp [trackFrames] at hx
  | .enter id size :: a, pos, x, hx => by
    rw [trackFrames] at hx
    · have := trackFrames_pos n a _ x hx
      omega
    · simp
  | .leaf id size data :: a, pos, x, hx => by
    rw [trackFrames] at hx
    · have := trackFrames_pos n a _ x hx
      omega
    · simp
  | .block b :: a, pos, x, hx => by
    rw [trackFrames] at hx
    rcases List.mem_append.1 hx with hx | hx
    · split at hx
      · have := framesAt_pos _ _ x hx
        have h2 : 0 < (MkvPart.block b).head.length := by simp [MkvPart.head, MkvBlock.head]; omega
        omega
      · simp at hx
    · have := trackFrames_pos n a _ x hx
      omega

theorem trackData_frames (n : Nat) : ∀ ps : List MkvPart, mkvTrackData ps n = (mkvTrackFrames ps n).flatten
  | [] => rfl
  | p :: ps => by
    have ih := trackData_frames n ps
    unfold mkvTrackData mkvTrackFrames at ih ⊢
    rw [List.flatMap_cons, List.flatMap_cons, List.flatten_append, ih]
    congr 1
    cases p with
    | enter => rfl
    | leaf => rfl
    | block b =>
      dsimp only
      split
      · rfl
      · rfl

/-- A track that was cut from a movie, as the search sees it. -/
theorem cut_at {movie sample : List MkvPart} {n : Nat} {sig : Bytes} (hc : MkvCut movie sample n sig)
    (hs : IsSignature sig (mkvTrackData sample n)) :
    ∃ A x B, trackFrames n 0 movie = A ++ x :: B ∧ Ordered (A ++ x :: B) ∧
      CutAt sig (strippedHeader movie n) (strippedHeader sample n) (mkvTrackData sample n) A x B := by
  obtain ⟨before, run, after, h1, h2, h3⟩ := hc.frames
  obtain ⟨f0, l0, hf0, hne⟩ := hc.some
  rw [← trackFrames_snd n movie 0] at h1
  obtain ⟨A, X, hAX, hA, hX⟩ := List.map_eq_append_iff.1 h1
  have hcut : ∀ fs : List Bytes, fs.map (fun f => (strippedHeader movie n ++ f).drop (strippedHeader sample n).length) =
      (fs.map (strippedHeader movie n ++ ·)).map (List.drop (strippedHeader sample n).length) := by
    intro fs; rw [List.map_map]; rfl
  have hrun : run.map (fun f => (strippedHeader movie n ++ f).drop (strippedHeader sample n).length) = mkvTrackFrames sample n := by
    rw [hcut, h2, List.map_map]
    have : ((List.drop (strippedHeader sample n).length) ∘ fun x => strippedHeader sample n ++ x) = id := by
      funext f; simp
    rw [this, List.map_id]
  cases X with
  | nil =>
    exfalso
    have : run = [] := by
      have := hX.symm
      simp at this
      exact this.1
    rw [this, hf0] at hrun
    simp at hrun
  | cons x B =>
    have hsnd : ∀ l : List (Nat × Bytes), l.map (fun f => (strippedHeader movie n ++ f.2).drop (strippedHeader sample n).length) =
        (l.map (·.2)).map (fun f => (strippedHeader movie n ++ f).drop (strippedHeader sample n).length) := by
      intro l; rw [List.map_map]; rfl
    have hxB : (x :: B).map (fun f => (strippedHeader movie n ++ f.2).drop (strippedHeader sample n).length) =
        mkvTrackFrames sample n ++ after.map (fun f => (strippedHeader movie n ++ f).drop (strippedHeader sample n).length) := by
      rw [hsnd, hX, List.map_append, hrun]
    have hmem : ∀ f ∈ A ++ x :: B, f.2 ∈ mkvTrackFrames movie n := by
      intro f hf
      rw [← trackFrames_snd n movie 0, hAX]
      exact List.mem_map.2 ⟨f, hf, rfl⟩
    have hsig1 : sig ≠ [] := by
      intro e
      have := hs.2.1 (by rw [e]; simp)
      rw [e, trackData_frames, hf0, List.flatten_cons] at this
      have := congrArg List.length this
      rw [List.length_append] at this
      have h4 := List.length_pos_iff.2 hne
      simp only [List.length_nil] at this
      omega
    refine ⟨A, x, B, hAX, ⟨?_, fun f hf => hc.full f.2 (hmem f hf)⟩, hs.1, hsig1, ?_, ?_, ?_, ?_, ?_, ?_⟩
    · rw [← hAX]; exact (trackFrames_bounds n movie 0).2
    · rcases hc.strip with h | h | ⟨h, h'⟩
      · exact Or.inl h
      · exact Or.inr (Or.inl h)
      · exact Or.inr (Or.inr ⟨h, fun f hf => h' f.2 (hmem f hf)⟩)
    · rw [hxB, trackData_frames, List.flatten_append]
      exact List.prefix_append _ _
    · intro a b e hb
      rw [hsnd b]
      exact h3 (a.map (·.2)) (b.map (·.2)) (by rw [← hA, e, List.map_append]) (by simpa using hb)
    · rw [hf0, List.map_cons, List.cons_append] at hxB
      injection hxB with hxB _
      rw [hxB]; exact hne
    · intro hsh k hk
      have htake : ((x :: B).take k).map (fun f => (strippedHeader movie n ++ f.2).drop (strippedHeader sample n).length) =
          (mkvTrackFrames sample n ++ after.map (fun f => (strippedHeader movie n ++ f).drop (strippedHeader sample n).length)).take k := by
        rw [List.map_take, hxB]
      rw [htake] at hk ⊢
      by_cases hkl : k ≤ (mkvTrackFrames sample n).length
      · rw [List.take_append_of_le_length hkl] at hk ⊢
        exact hc.clear hsh k hk
      · exfalso
        rw [List.take_append, List.take_of_length_le (by omega), List.flatten_append, List.length_append, ← trackData_frames] at hk
        have := hs.1.length_le
        omega
    · exact trackFrames_pos n movie 0 x (by rw [hAX]; simp)

theorem nodup_get {α : Type} {l : List (Nat × α)} (hd : l.Pairwise fun a b => a.1 ≠ b.1) {n : Nat} {t : α} (h : (n, t) ∈ l) : movGet l n = some t := by
  induction l with
  | nil => simp at h
  | cons y l ih =>
    obtain ⟨h1, h2⟩ := List.pairwise_cons.1 hd
    unfold movGet at ih ⊢
    rw [List.find?_cons]
    rcases List.mem_cons.1 h with rfl | h
    · simp
    · simp only [show (y.1 == n) = false from beq_eq_false_iff_ne.mpr (h1 _ h)]
      exact ih h2 h

theorem mkvLoop_inv {σ : Type} {mode : EbmlMode} {again : Bool} {how : σ → EbmlElem → EbmlHow} {file : Bytes}
    {f : σ → EbmlElem → Bytes → Res (σ × Bool)} (P : σ → Prop) (h : ∀ s e d r, P s → f s e d = .ok r → P r.1) :
    ∀ {fuel pos : Nat} {s r : σ} {done : Bool}, P s → mkvLoop mode again how file f fuel pos s done = .ok r → P r
  | 0, _, _, _, _, _, hr => by simp [mkvLoop] at hr
  | fuel + 1, pos, s, r, done, hs, hr => by
    rw [mkvLoop.eq_def] at hr
    simp only [bind_eq_ok] at hr
    obtain ⟨a, _, hr⟩ := hr
    cases a with
    | none =>
      simp only [pure_eq_ok, Except.ok.injEq] at hr
      rw [← hr]; exact hs
    | some e =>
      dsimp only at hr
      split at hr
      · simp only [pure_eq_ok, Except.ok.injEq] at hr
        rw [← hr]; exact hs
      · simp only [bind_eq_ok] at hr
        obtain ⟨⟨d, q⟩, _, ⟨s', d'⟩, h1, h2⟩ := hr
        dsimp only at h2
        split at h2
        · simp only [pure_eq_ok, Except.ok.injEq] at h2
          rw [← h2]; exact h _ _ _ _ hs h1
        · exact mkvLoop_inv P h (h _ _ _ _ hs h1) h2

/-- What is known of tracks that were read from an SRS, apart from the places. -/
structure TracksKnown (parts : List MkvPart) (ts : MkvTracks) : Prop where
  distinct : ts.Pairwise fun a b => a.1 ≠ b.1
  known : ∀ n t, movGet ts n = some t → t.len = (mkvTrackData parts n).length ∧ IsSignature t.sig (mkvTrackData parts n) ∧
    t.settings = strippedHeader parts n ∧ t.matchLen = 0 ∧ t.check = []

/-- Where the tracks of a sample are in the movie. -/
theorem cut_places {S movie : List MkvPart} {ts : MkvTracks} (hr : TracksKnown S ts)
    (hcut : ∀ n t, movGet ts n = some t → t.sig ≠ [] → MkvCut movie S n t.sig) :
    ∃ (A : Nat → List (Nat × Bytes)) (x : Nat → Nat × Bytes) (B : Nat → List (Nat × Bytes)), ∀ n t, movGet ts n = some t → t.sig ≠ [] →
      trackFrames n 0 movie = A n ++ x n :: B n ∧ Ordered (A n ++ x n :: B n) ∧
      CutAt t.sig (strippedHeader movie n) (strippedHeader S n) (mkvTrackData S n) (A n) (x n) (B n) := by
  have hex : ∀ n, ∃ A x B, ∀ t, movGet ts n = some t → t.sig ≠ [] → trackFrames n 0 movie = A ++ x :: B ∧ Ordered (A ++ x :: B) ∧
      CutAt t.sig (strippedHeader movie n) (strippedHeader S n) (mkvTrackData S n) A x B := by
    intro n
    cases hg : movGet ts n with
    | none => exact ⟨[], (0, []), [], fun t h => by simp at h⟩
    | some t =>
      by_cases hsig : t.sig = []
      · refine ⟨[], (0, []), [], fun t' h h' => ?_⟩
        injection h with h
        rw [h] at hsig
        exact absurd hsig h'
      · obtain ⟨A, x, B, h1, h2, h3⟩ := cut_at (hcut n t hg hsig) (hr.known n t hg).2.1
        refine ⟨A, x, B, fun t' h _ => ?_⟩
        injection h with h
        subst h
        exact ⟨h1, h2, h3⟩
  obtain ⟨A, hex⟩ := Classical.axiomOfChoice hex
  obtain ⟨x, hex⟩ := Classical.axiomOfChoice hex
  obtain ⟨B, hex⟩ := Classical.axiomOfChoice hex
  exact ⟨A, x, B, hex⟩

theorem known_cut {S movie : List MkvPart} {ts : MkvTracks} (hr : TracksKnown S ts) {A B : Nat → List (Nat × Bytes)} {x : Nat → Nat × Bytes}
    (hex : ∀ n t, movGet ts n = some t → t.sig ≠ [] → trackFrames n 0 movie = A n ++ x n :: B n ∧ Ordered (A n ++ x n :: B n) ∧
      CutAt t.sig (strippedHeader movie n) (strippedHeader S n) (mkvTrackData S n) (A n) (x n) (B n)) :
    CutTracks ts movie (strippedHeader movie) (mkvTrackData S) A x B := by
  refine ⟨hr.distinct, ?_, ?_⟩
  · intro n t hg
    obtain ⟨h2, h3, _, h4, h5⟩ := hr.known n t hg
    refine ⟨h5, h4, fun e => ?_, ?_⟩
    · have := h3.2.1 (by rw [e]; simp)
      rw [h2, ← this, e]; rfl
    · have h4 := h3.1.length_le
      omega
  · intro n t hg hs
    obtain ⟨h1, _, h3⟩ := hex n t hg hs
    rw [(hr.known n t hg).2.2.1]
    exact ⟨h3, h1⟩

/-- A sample whose tracks are known is rebuilt, when the places are found in the movie or are the right ones. -/
theorem mkv_loaded_rebuilt {lead info media mlead minfo mmedia : List MkvTop} {seg mseg : Bytes}
    (hp : PlainMkv lead seg info media) (hm : PlainMovie mlead mseg minfo mmedia) {app name : Str} {ig : Bool} {srs : Bytes} {ts : MkvTracks}
    {A B : Nat → List (Nat × Bytes)} {x : Nat → Nat × Bytes}
    (hl : mkvLoadSrs srs = .ok (some ⟨3, app, name, (mkvFile (lead ++ .part (.enter segmentId seg) :: (info ++ media))).length,
        (crc32 (mkvFile (lead ++ .part (.enter segmentId seg) :: (info ++ media))) 0).toNat⟩, ts))
    (hreb : ∀ (ts : MkvTracks) (files : TrackFiles) (atts : MkvAttach),
      (∀ b, .block b ∈ mkvFine media → (∃ t, movGet ts b.track = some t) ∧
        ∃ more, files b.track = some (mkvTrackData (mkvFine media) b.track ++ more)) →
      (∀ n d, (some n, d) ∈ attachments none (mkvFine media) → attachGet atts n = some (some d)) →
      mkvRebuild srs 3 ts files atts = .ok (mkvFile (lead ++ .part (.enter segmentId seg) :: (info ++ media)),
        crc32 (mkvFile (lead ++ .part (.enter segmentId seg) :: (info ++ media))) 0))
    (hr : TracksKnown (mkvFine (lead ++ .part (.enter segmentId seg) :: (info ++ media))) ts)
    (hall : ∀ b, .block b ∈ mkvFine media → ∃ t, movGet ts b.track = some t ∧ t.sig ≠ [])
    (hex : ∀ n t, movGet ts n = some t → t.sig ≠ [] →
      trackFrames n 0 (mkvFine (mlead ++ .part (.enter segmentId mseg) :: (minfo ++ mmedia))) = A n ++ x n :: B n ∧ Ordered (A n ++ x n :: B n) ∧
      CutAt t.sig (strippedHeader (mkvFine (mlead ++ .part (.enter segmentId mseg) :: (minfo ++ mmedia))) n)
        (strippedHeader (mkvFine (lead ++ .part (.enter segmentId seg) :: (info ++ media))) n)
        (mkvTrackData (mkvFine (lead ++ .part (.enter segmentId seg) :: (info ++ media))) n) (A n) (x n) (B n))
    (hoff : ts.any (fun t => t.2.offset == 0) = false → ∀ n t, movGet ts n = some t → t.sig ≠ [] → t.offset = (x n).1)
    (hatt : ∀ x ∈ attachments none (mkvFine (lead ++ .part (.enter segmentId seg) :: (info ++ media))),
      x ∈ attachments none (mkvFine (mlead ++ .part (.enter segmentId mseg) :: (minfo ++ mmedia)))) :
    srsMkvReconstruct srs (mkvFile (mlead ++ .part (.enter segmentId mseg) :: (minfo ++ mmedia))) ig =
      .ok ⟨mkvFile (lead ++ .part (.enter segmentId seg) :: (info ++ media)),
        (mkvFile (lead ++ .part (.enter segmentId seg) :: (info ++ media))).length,
        (crc32 (mkvFile (lead ++ .part (.enter segmentId seg) :: (info ++ media))) 0).toNat, true⟩ := by
  have sh := plainMkv_shape hp
  have hparts : mkvFine (lead ++ .part (.enter segmentId seg) :: (info ++ media)) =
      mkvFine (lead ++ .part (.enter segmentId seg) :: info) ++ mkvFine media := by
    simp [mkvFine]
  have hdata : ∀ n, mkvTrackData (mkvFine (lead ++ .part (.enter segmentId seg) :: (info ++ media))) n = mkvTrackData (mkvFine media) n := by
    intro n
    rw [hparts, trackData_append, trackData_calm sh.calmFine, List.nil_append]
  have hmt := plainMovie_tops hm
  generalize hS : mkvFine (lead ++ .part (.enter segmentId seg) :: (info ++ media)) = S at *
  generalize hM : mlead ++ .part (.enter segmentId mseg) :: (minfo ++ mmedia) = M at *
  have hct := known_cut hr hex
  -- the search
  have hfind : ∃ tr, (if ig = true ∨ ts.any (fun t => t.2.offset == 0) = true ∨ ts.any (fun t => !enoughSignature t.2) = true then (do
      let tr ← mkvFind ts (mkvFile M)
      if mkvUnlocated tr then throw .other
      else return tr : Res MkvTracks) else .ok ts) = .ok tr ∧
      tr.Pairwise (fun a b => a.1 ≠ b.1) ∧
      (∀ n t0, movGet ts n = some t0 → ∃ t, movGet tr n = some t ∧ t.sig = t0.sig ∧ t.len = t0.len ∧ t.settings = t0.settings ∧
        (t0.sig ≠ [] → t.offset = (x n).1)) ∧
      ∀ n t, movGet tr n = some t → movGet ts n = none → t.sig = [] ∧ t.len = 0 := by
    by_cases hcond : ig = true ∨ ts.any (fun t => t.2.offset == 0) = true ∨ ts.any (fun t => !enoughSignature t.2) = true
    · obtain ⟨tr, h1, h2, h3, h4⟩ := mkvFind_ok hmt hct
      refine ⟨tr, ?_, h2, h3, h4⟩
      rw [if_pos hcond, h1, ok_bind, if_neg]
      · rfl
      · unfold mkvUnlocated
        intro hany
        obtain ⟨⟨n, t⟩, hmem, hbad⟩ := List.any_eq_true.1 hany
        have hg := nodup_get h2 hmem
        simp only [ne_eq, decide_not, Bool.and_eq_true, Bool.not_eq_true', decide_eq_false_iff_not, beq_iff_eq] at hbad
        cases h0 : movGet ts n with
        | none => exact hbad.1 (h4 n t hg h0).1
        | some t0 =>
          obtain ⟨t', h5, h6, _, _, h9⟩ := h3 n t0 h0
          rw [hg] at h5
          injection h5 with h5
          subst h5
          have hs0 : t0.sig ≠ [] := by rw [← h6]; exact hbad.1
          have := h9 hs0
          have hpos := (hct.cut n t0 h0 hs0).1.pos
          have := hbad.2
          omega
    · refine ⟨ts, by rw [if_neg hcond], hr.distinct, ?_, ?_⟩
      · intro n t0 h0
        exact ⟨t0, h0, rfl, rfl, rfl, hoff (by
          rw [← Bool.not_eq_true]
          intro e
          exact hcond (Or.inr (Or.inl e))) n t0 h0⟩
      · intro n t h1 h2
        rw [h1] at h2; simp at h2
  obtain ⟨tr, hf1, hf2, hf3, hf4⟩ := hfind
  have hxt : ExTracks tr (mkvFine M) (strippedHeader (mkvFine M)) (mkvTrackData S) A x B := by
    constructor
    intro n t hg hs
    cases h0 : movGet ts n with
    | none => exact absurd (hf4 n t hg h0).1 hs
    | some t0 =>
      obtain ⟨t', h5, h6, h7, h8, h9⟩ := hf3 n t0 h0
      rw [hg] at h5
      injection h5 with h5
      subst h5
      have hs0 : t0.sig ≠ [] := by rw [← h6]; exact hs
      obtain ⟨h1, h2, h3⟩ := hex n t0 h0 hs0
      rw [h6, h8, (hr.known n t0 h0).2.2.1]
      exact ⟨h3, h1, h2, h9 hs0, by rw [h7]; exact (hr.known n t0 h0).1⟩
  obtain ⟨files, atts, he1, he2, he3⟩ := mkvExtract_ok hmt hxt (by
    intro id size inner hmem
    apply hm.inner
    rw [← hM] at hmem
    rcases List.mem_append.1 hmem with ht | ht
    · obtain ⟨_, _, _, e, _⟩ := hm.leads _ ht
      simp at e
    · rcases List.mem_cons.1 ht with ht | ht
      · simp at ht
      · exact ht)
  have hnofail : tr.any (fun t => t.2.sig ≠ [] && (match files t.1 with
      | none => true
      | some b => decide ((b.length : Int) < t.2.len))) = false := by
    rw [List.any_eq_false]
    rintro ⟨n, t⟩ hmem hbad
    dsimp only at hbad
    rw [Bool.and_eq_true] at hbad
    have hg := nodup_get hf2 hmem
    have hs : t.sig ≠ [] := by simpa using hbad.1
    obtain ⟨more, hmo⟩ := he2 n t hg hs
    have hb2 := hbad.2
    rw [hmo] at hb2
    simp only [decide_eq_true_eq] at hb2
    rw [(hxt.cut n t hg hs).2.2.2.2, List.length_append] at hb2
    omega
  have hattS : attachments none S = attachments none (mkvFine media) := by
    rw [hparts, attachments_calm sh.calmFine]
  have hrb := hreb tr files atts ?_ ?_
  · unfold srsMkvReconstruct
    rw [hl, ok_bind]
    dsimp only
    rw [hf1, ok_bind, he1, ok_bind]
    dsimp only
    have hnot := Bool.eq_false_iff.1 hnofail
    rw [if_neg (by exact hnot), hrb, ok_bind]
    simp
  · intro b hb
    obtain ⟨t0, h0, hs⟩ := hall b hb
    obtain ⟨t, h1, h2, _⟩ := hf3 b.track t0 h0
    have hs0 : t.sig ≠ [] := by rw [h2]; exact hs
    obtain ⟨more, hmore⟩ := he2 b.track t h1 hs0
    exact ⟨⟨t, h1⟩, more, by rw [hmore, hdata]⟩
  · intro n d hd
    exact he3 n d (hatt _ (by rw [hattS]; exact hd))

/-- A track whose blocks have no data has no signature. -/
theorem block_of_sig {calm parts media : List MkvPart} (hparts : parts = calm ++ media) (hcalm : ∀ n, mkvTrackData calm n = []) {n : Nat} {sig : Bytes}
    (hs : IsSignature sig (mkvTrackData parts n)) (hne : sig ≠ []) : ∃ b, .block b ∈ media ∧ b.track = n := by
  apply Classical.byContradiction
  intro hno
  have : mkvTrackData media n = [] := by
    unfold mkvTrackData
    rw [List.flatMap_eq_nil_iff]
    intro p hp
    cases p with
    | enter => rfl
    | leaf => rfl
    | block b =>
      dsimp only
      rw [if_neg]
      intro e
      exact hno ⟨b, hp, e⟩
  have h2 := hs.1
  rw [hparts, trackData_append, hcalm, this] at h2
  exact hne (List.prefix_nil.1 h2)

theorem sig_of_data {sig d : Bytes} (hs : IsSignature sig d) (hd : d ≠ []) : sig ≠ [] := by
  intro e
  have := hs.2.1 (by rw [e]; simp)
  exact hd (by rw [← this, e])

/-- C66: for every MKV sample and every movie: when the frames of each track of the sample are, with the
bytes that are stripped in either file, consecutive frames of that track of the movie, the frames from
an earlier one on do not look like their beginning, and the attached files of the sample are attached to the movie, then the
sample is rebuilt from its SRS and the movie, byte for byte. -/
theorem mkv_cut_rebuilt_partial {lead info media mlead minfo mmedia : List MkvTop} {seg mseg : Bytes}
    (hp : PlainMkv lead seg info media) (hm : PlainMovie mlead mseg minfo mmedia)
    (hn : ∀ n, HasTrack (mkvFine (lead ++ .part (.enter segmentId seg) :: (info ++ media))) n → n < 2 ^ 16)
    {app name : Str} {big ig : Bool} {srs : Bytes} {f : Option FileData} {ts : MkvTracks}
    (h : srsMkvCreate app name (mkvFile (lead ++ .part (.enter segmentId seg) :: (info ++ media))) big none = .ok srs)
    (hl : mkvLoadSrs srs = .ok (f, ts))
    (hcut : ∀ n t, movGet ts n = some t → (∃ b, .block b ∈ mkvFine media ∧ b.track = n) →
      MkvCut (mkvFine (mlead ++ .part (.enter segmentId mseg) :: (minfo ++ mmedia)))
        (mkvFine (lead ++ .part (.enter segmentId seg) :: (info ++ media))) n t.sig)
    (hatt : ∀ x ∈ attachments none (mkvFine (lead ++ .part (.enter segmentId seg) :: (info ++ media))),
      x ∈ attachments none (mkvFine (mlead ++ .part (.enter segmentId mseg) :: (minfo ++ mmedia)))) :
    srsMkvReconstruct srs (mkvFile (mlead ++ .part (.enter segmentId mseg) :: (minfo ++ mmedia))) ig =
      .ok ⟨mkvFile (lead ++ .part (.enter segmentId seg) :: (info ++ media)),
        (mkvFile (lead ++ .part (.enter segmentId seg) :: (info ++ media))).length,
        (crc32 (mkvFile (lead ++ .part (.enter segmentId seg) :: (info ++ media))) 0).toNat, true⟩ := by

  have sh := plainMkv_shape hp
  obtain ⟨⟨ts', hl', hr⟩, hreb⟩ := mkv_strip_rebuild_partial hp hn h
  rw [hl] at hl'
  injection hl' with hl'
  rw [Prod.mk.injEq] at hl'
  obtain ⟨rfl, rfl⟩ := hl'
  have hparts : mkvFine (lead ++ .part (.enter segmentId seg) :: (info ++ media)) =
      mkvFine (lead ++ .part (.enter segmentId seg) :: info) ++ mkvFine media := by
    simp [mkvFine]
  have hk : TracksKnown (mkvFine (lead ++ .part (.enter segmentId seg) :: (info ++ media))) ts := by
    refine ⟨hr.distinct, fun n t hg => ?_⟩
    obtain ⟨_, h2, h3, h4, _, _, h7, h8⟩ := hr.known n t hg
    exact ⟨h2, h3, h4, h7, h8⟩
  obtain ⟨A, x, B, hex⟩ := cut_places hk (fun n t hg hs => hcut n t hg
    (block_of_sig hparts (trackData_calm sh.calmFine) (hk.known n t hg).2.1 hs))
  refine mkv_loaded_rebuilt hp hm hl hreb hk ?_ hex ?_ hatt
  · intro b hb
    have hhas : HasTrack (mkvFine (lead ++ .part (.enter segmentId seg) :: (info ++ media))) b.track := by
      rw [hparts]
      exact Or.inl ⟨b, List.mem_append.2 (Or.inr hb), rfl⟩
    obtain ⟨t0, h0⟩ := (hr.which b.track).2 hhas
    refine ⟨t0, h0, sig_of_data (hk.known _ _ h0).2.1 ?_⟩
    obtain ⟨f1, l1, hsome, hne1⟩ := (hcut b.track t0 h0 ⟨b, hb, rfl⟩).some
    rw [trackData_frames, hsome, List.flatten_cons]
    simp [hne1]
  · intro hno n t hg hs
    exfalso
    refine List.any_eq_false.1 hno (n, t) (movGet_eq_some hg) ?_
    simp [(hr.known n t hg).2.2.2.2.1]

/-- What the search keeps of the tracks it was given, and what it knows of others. -/
structure SearchKeeps (ts tr : MkvTracks) : Prop where
  distinct : ts.Pairwise (fun a b => a.1 ≠ b.1) → tr.Pairwise fun a b => a.1 ≠ b.1
  old : ∀ n t0, movGet ts n = some t0 → ∃ t, movGet tr n = some t ∧ t.sig = t0.sig ∧ t.number = t0.number ∧ t.flags = t0.flags
  new : ∀ n t, movGet tr n = some t → movGet ts n = none → t.sig = []

theorem findFrame_keeps (base : Int) (ss sm buff : Bytes) (t : MkvTrack) (offset frame : Int) :
    (mkvFindFrame base ss sm buff t offset frame).sig = t.sig ∧ (mkvFindFrame base ss sm buff t offset frame).number = t.number ∧
      (mkvFindFrame base ss sm buff t offset frame).flags = t.flags := by
  unfold mkvFindFrame
  dsimp only
  repeat' split
  all_goals simp_all

theorem findFrames_keeps (base : Int) (ss sm buff : Bytes) : ∀ (frames : List Int) (t : MkvTrack) (offset : Int),
    (mkvFindFrames base ss sm buff t offset frames).sig = t.sig ∧ (mkvFindFrames base ss sm buff t offset frames).number = t.number ∧
      (mkvFindFrames base ss sm buff t offset frames).flags = t.flags
  | [], _, _ => ⟨rfl, rfl, rfl⟩
  | fr :: rest, t, offset => by
    have h1 := findFrames_keeps base ss sm buff rest (mkvFindFrame base ss sm buff t offset fr) (offset + fr)
    have h2 := findFrame_keeps base ss sm buff t offset fr
    exact ⟨h1.1.trans h2.1, h1.2.1.trans h2.2.1, h1.2.2.trans h2.2.2⟩

theorem put_keeps {ts tr : MkvTracks} (h : SearchKeeps ts tr) (n : Nat) (t' : MkvTrack)
    (ht : t'.sig = (mkvTrackOf tr n).sig ∧ t'.number = (mkvTrackOf tr n).number ∧ t'.flags = (mkvTrackOf tr n).flags) :
    SearchKeeps ts (dictPut tr n t') := by
  refine ⟨fun hd => dictPut_distinct (h.distinct hd) _ _, ?_, ?_⟩
  · intro k t0 h0
    rw [movGet_dictPut]
    obtain ⟨t, h1, h2, h3, h4⟩ := h.old k t0 h0
    by_cases e : k = n
    · subst e
      have : mkvTrackOf tr k = t := by unfold mkvTrackOf; rw [h1]; rfl
      rw [this] at ht
      exact ⟨t', by rw [if_pos rfl], ht.1.trans h2, ht.2.1.trans h3, ht.2.2.trans h4⟩
    · exact ⟨t, by rw [if_neg e]; exact h1, h2, h3, h4⟩
  · intro k t h1 h2
    rw [movGet_dictPut] at h1
    by_cases e : k = n
    · subst e
      rw [if_pos rfl] at h1
      injection h1 with h1
      rw [← h1, ht.1]
      unfold mkvTrackOf
      cases hg : movGet tr k with
      | none => rfl
      | some t2 => exact h.new k t2 hg h2
    · rw [if_neg e] at h1
      exact h.new k t h1 h2

theorem mkvFind_keeps {ts tr : MkvTracks} {main : Bytes} (h : mkvFind ts main = .ok tr) : SearchKeeps ts tr := by
  unfold mkvFind mkvWalk at h
  simp only [bind_eq_ok, pure_eq_ok, Except.ok.injEq] at h
  obtain ⟨s, hs, rfl⟩ := h
  refine mkvLoop_inv (fun s : MkvFind => SearchKeeps ts s.tracks) ?_ ⟨fun hd => hd, fun n t0 h0 => ⟨t0, h0, rfl, rfl, rfl⟩, fun n t h1 h2 => by
    dsimp only at h1; rw [h1] at h2; simp at h2⟩ hs
  intro s e d r hi h
  unfold mkvFindItem at h
  split at h
  · injection h with h
    subst h
    unfold mkvBlockFind
    dsimp only
    split
    · exact put_keeps hi _ _ (findFrames_keeps _ _ _ _ _ _ _)
    · split
      · exact put_keeps hi _ _ ⟨rfl, rfl, rfl⟩
      · exact put_keeps hi _ _ ⟨rfl, rfl, rfl⟩
  · split at h
    · split at h
      · injection h with h
        subst h
        exact hi
      · simp at h
    · simp only [bind_eq_ok, pure_eq_ok, Except.ok.injEq] at h
      obtain ⟨_, _, rfl⟩ := h
      exact hi

theorem movGet_filter {l : MkvTracks} (hd : l.Pairwise fun a b => a.1 ≠ b.1) (n : Nat) (t : MkvTrack) :
    movGet (l.filter (fun t => t.2.sig ≠ [])) n = some t ↔ movGet l n = some t ∧ t.sig ≠ [] := by
  constructor
  · intro h
    have := List.mem_filter.1 (movGet_eq_some h)
    exact ⟨movGet_of_mem hd this.1, by simpa using this.2⟩
  · rintro ⟨h1, h2⟩
    exact movGet_of_mem (hd.filter _) (List.mem_filter.2 ⟨movGet_eq_some h1, by simpa using h2⟩)

/-- C66: the same for an SRS that was made with the movie at hand: the places that were found then are
in it, and the tracks without data are not. -/
theorem mkv_checked_rebuilt_partial {lead info media mlead minfo mmedia : List MkvTop} {seg mseg : Bytes}
    (hp : PlainMkv lead seg info media) (hm : PlainMovie mlead mseg minfo mmedia)
    (hn : ∀ n, HasTrack (mkvFine (lead ++ .part (.enter segmentId seg) :: (info ++ media))) n → n < 2 ^ 16)
    {app name : Str} {big ig : Bool} {srs : Bytes} {f : Option FileData} {ts : MkvTracks}
    (h : srsMkvCreate app name (mkvFile (lead ++ .part (.enter segmentId seg) :: (info ++ media))) big
      (some (mkvFile (mlead ++ .part (.enter segmentId mseg) :: (minfo ++ mmedia)))) = .ok srs)
    (hl : mkvLoadSrs srs = .ok (f, ts))
    (hdata : ∀ b, .block b ∈ mkvFine media → mkvTrackData (mkvFine (lead ++ .part (.enter segmentId seg) :: (info ++ media))) b.track ≠ [])
    (hcut : ∀ n t, movGet ts n = some t → t.sig ≠ [] →
      MkvCut (mkvFine (mlead ++ .part (.enter segmentId mseg) :: (minfo ++ mmedia)))
        (mkvFine (lead ++ .part (.enter segmentId seg) :: (info ++ media))) n t.sig)
    (hatt : ∀ x ∈ attachments none (mkvFine (lead ++ .part (.enter segmentId seg) :: (info ++ media))),
      x ∈ attachments none (mkvFine (mlead ++ .part (.enter segmentId mseg) :: (minfo ++ mmedia)))) :
    srsMkvReconstruct srs (mkvFile (mlead ++ .part (.enter segmentId mseg) :: (minfo ++ mmedia))) ig =
      .ok ⟨mkvFile (lead ++ .part (.enter segmentId seg) :: (info ++ media)),
        (mkvFile (lead ++ .part (.enter segmentId seg) :: (info ++ media))).length,
        (crc32 (mkvFile (lead ++ .part (.enter segmentId seg) :: (info ++ media))) 0).toNat, true⟩ := by
  have sh := plainMkv_shape hp
  have hparts : mkvFine (lead ++ .part (.enter segmentId seg) :: (info ++ media)) =
      mkvFine (lead ++ .part (.enter segmentId seg) :: info) ++ mkvFine media := by
    simp [mkvFine]
  unfold srsMkvCreate at h
  split at h
  · simp at h
  simp only [bind_eq_ok] at h
  obtain ⟨⟨crc, pts⟩, hprof, h⟩ := h
  dsimp only at h
  split at h
  · simp at h
  simp only [bind_eq_ok] at h
  obtain ⟨fts, ⟨tr, hfind, h1⟩, h⟩ := h
  split at h1
  · simp [throw_eq_error] at h1
  rw [pure_eq_ok, Except.ok.injEq] at h1
  subst h1
  obtain ⟨rfl, ht⟩ := mkvProfile_ok sh.prof hp.fits hprof
  have hkeep := mkvFind_keeps hfind
  have hpk : TracksKnown (mkvFine (lead ++ .part (.enter segmentId seg) :: (info ++ media))) pts := by
    refine ⟨ht.distinct, fun n t hg => ?_⟩
    have h3 := ht.data n t (movGet_eq_some hg)
    rw [h3.2]
    exact ⟨rfl, h3.1, rfl, rfl, rfl⟩
  have hd := hkeep.distinct ht.distinct
  have hback : ∀ n t, movGet tr n = some t → t.sig ≠ [] → ∃ t0, movGet pts n = some t0 := by
    intro n t hg hs
    cases h0 : movGet pts n with
    | none => exact absurd (hkeep.new n t hg h0) hs
    | some t0 => exact ⟨t0, rfl⟩
  obtain ⟨h1, h2⟩ := mkv_srs_rebuilds hp (by
    rintro ⟨n, t⟩ hxm
    have h3 := List.mem_filter.1 hxm
    have hg := movGet_of_mem hd h3.1
    obtain ⟨t0, h0⟩ := hback n t hg (by simpa using h3.2)
    obtain ⟨t', h4, _, h5, h6⟩ := hkeep.old n t0 h0
    rw [hg] at h4
    injection h4 with h4
    subst h4
    have h7 := (ht.data n t0 (movGet_eq_some h0)).2
    have h8 := hn n ((ht.keys n).1 (List.mem_map.2 ⟨_, movGet_eq_some h0, rfl⟩))
    dsimp only
    rw [h5, h6, h7]
    exact ⟨rfl, h8, rfl⟩) (hd.filter _) h
  rw [Nat.mod_eq_of_lt (BitVec.isLt _)] at h1
  rw [hl] at h1
  injection h1 with h1
  rw [Prod.mk.injEq] at h1
  obtain ⟨rfl, hts⟩ := h1
  have hget : ∀ n t, movGet tr n = some t → t.sig ≠ [] → movGet ts n = some { loadTrack big t with
      settings := strippedHeader (mkvFine (lead ++ .part (.enter segmentId seg) :: (info ++ media))) n } := by
    intro n t hg hs
    rw [hts, movGet_map _ (fun n t => ({ loadTrack big t with settings := strippedHeader (mkvFine (lead ++ .part (.enter segmentId seg) :: (info ++ media))) n } : MkvTrack)),
      (movGet_filter hd n t).2 ⟨hg, hs⟩]
    rfl
  have hof : ∀ n t, movGet ts n = some t → ∃ t1, movGet tr n = some t1 ∧ t1.sig ≠ [] ∧ t = { loadTrack big t1 with
      settings := strippedHeader (mkvFine (lead ++ .part (.enter segmentId seg) :: (info ++ media))) n } := by
    intro n t hg
    rw [hts, movGet_map _ (fun n t => ({ loadTrack big t with settings := strippedHeader (mkvFine (lead ++ .part (.enter segmentId seg) :: (info ++ media))) n } : MkvTrack)),
      Option.map_eq_some_iff] at hg
    obtain ⟨t1, h3, h4⟩ := hg
    obtain ⟨h5, h6⟩ := (movGet_filter hd n t1).1 h3
    exact ⟨t1, h5, h6, h4.symm⟩
  obtain ⟨A, x, B, hex⟩ := cut_places hpk (fun n t0 h0 hs => by
    obtain ⟨t, h3, h4, _⟩ := hkeep.old n t0 h0
    have := hcut n _ (hget n t h3 (by rw [h4]; exact hs)) (by show t.sig ≠ []; rw [h4]; exact hs)
    rw [← h4]
    exact this)
  obtain ⟨tr', hf1, _, hf3, _⟩ := mkvFind_ok (plainMovie_tops hm) (known_cut hpk hex)
  rw [hfind, Except.ok.injEq] at hf1
  subst hf1
  have hall : ∀ n t, movGet ts n = some t → ∃ t0, movGet pts n = some t0 ∧ t.sig = t0.sig ∧ t0.sig ≠ [] ∧ t.len = t0.len ∧
      t.settings = strippedHeader (mkvFine (lead ++ .part (.enter segmentId seg) :: (info ++ media))) n ∧ t.matchLen = 0 ∧ t.check = [] ∧
      t.offset = (x n).1 := by
    intro n t hg
    obtain ⟨t1, h3, h4, rfl⟩ := hof n t hg
    obtain ⟨t0, h0⟩ := hback n t1 h3 h4
    obtain ⟨t', h5, h6, h7, _, h9⟩ := hf3 n t0 h0
    rw [h3] at h5
    injection h5 with h5
    subst h5
    have hs : t0.sig ≠ [] := by rw [← h6]; exact h4
    exact ⟨t0, h0, h6, hs, h7, rfl, rfl, rfl, h9 hs⟩
  refine mkv_loaded_rebuilt (A := A) (B := B) (x := x) hp hm hl h2 ⟨?_, ?_⟩ ?_ ?_ ?_ hatt
  · rw [hts, List.pairwise_map]
    exact hd.filter _
  · intro n t hg
    obtain ⟨t0, h0, h3, _, h5, h6, h7, h8, _⟩ := hall n t hg
    obtain ⟨k1, k2, _⟩ := hpk.known n t0 h0
    exact ⟨by rw [h5, k1], by rw [h3]; exact k2, h6, h7, h8⟩
  · intro b hb
    have hhas : HasTrack (mkvFine (lead ++ .part (.enter segmentId seg) :: (info ++ media))) b.track := by
      rw [hparts]
      exact Or.inl ⟨b, List.mem_append.2 (Or.inr hb), rfl⟩
    obtain ⟨t0, h0⟩ := Option.isSome_iff_exists.1 (movGet_isSome.2 ((ht.keys b.track).2 hhas))
    have hs := sig_of_data (hpk.known _ _ h0).2.1 (hdata b hb)
    obtain ⟨t, h3, h4, _⟩ := hkeep.old _ t0 h0
    exact ⟨_, hget _ t h3 (by rw [h4]; exact hs), by show t.sig ≠ []; rw [h4]; exact hs⟩
  · intro n t hg _
    obtain ⟨t0, h0, h3, h4, _⟩ := hall n t hg
    rw [h3]
    exact hex n t0 h0 h4
  · intro _ n t hg _
    obtain ⟨_, _, _, _, _, _, _, _, h⟩ := hall n t hg
    exact h

/-- C66: a file that is a sample and a movie is rebuilt from its SRS and itself, when it has no empty
frames. -/
theorem mkv_self_rebuilt {lead info media mlead minfo mmedia : List MkvTop} {seg mseg : Bytes}
    (hp : PlainMkv lead seg info media) (hm : PlainMovie mlead mseg minfo mmedia)
    (hsame : mkvFine (mlead ++ .part (.enter segmentId mseg) :: (minfo ++ mmedia)) =
      mkvFine (lead ++ .part (.enter segmentId seg) :: (info ++ media)))
    (hn : ∀ n, HasTrack (mkvFine (lead ++ .part (.enter segmentId seg) :: (info ++ media))) n → n < 2 ^ 16)
    (hfull : ∀ b, .block b ∈ mkvFine (lead ++ .part (.enter segmentId seg) :: (info ++ media)) → b.frames ≠ [] ∧ ∀ f ∈ b.frames, f ≠ [])
    {app name : Str} {big ig : Bool} {srs : Bytes}
    (h : srsMkvCreate app name (mkvFile (lead ++ .part (.enter segmentId seg) :: (info ++ media))) big none = .ok srs) :
    srsMkvReconstruct srs (mkvFile (lead ++ .part (.enter segmentId seg) :: (info ++ media))) ig =
      .ok ⟨mkvFile (lead ++ .part (.enter segmentId seg) :: (info ++ media)),
        (mkvFile (lead ++ .part (.enter segmentId seg) :: (info ++ media))).length,
        (crc32 (mkvFile (lead ++ .part (.enter segmentId seg) :: (info ++ media))) 0).toNat, true⟩ := by
  obtain ⟨⟨ts, hl, hr⟩, _⟩ := mkv_strip_rebuild_partial hp hn h
  have hfile : mkvFile (lead ++ .part (.enter segmentId seg) :: (info ++ media)) =
      mkvFile (mlead ++ .part (.enter segmentId mseg) :: (minfo ++ mmedia)) := by unfold mkvFile; rw [hsame]
  have := mkv_cut_rebuilt_partial (ig := ig) hp hm hn h hl ?_ ?_
  · rw [← hfile] at this
    exact this
  · intro n t hg hb
    rw [hsame]
    have hall : ∀ f ∈ mkvTrackFrames (mkvFine (lead ++ .part (.enter segmentId seg) :: (info ++ media))) n, f ≠ [] := by
      intro f hf
      unfold mkvTrackFrames at hf
      obtain ⟨p, hp, hf⟩ := List.mem_flatMap.1 hf
      cases p with
      | enter => simp at hf
      | leaf => simp at hf
      | block b =>
        dsimp only at hf
        split at hf
        · exact (hfull b hp).2 f hf
        · simp at hf
    refine ⟨?_, ⟨[], _, [], by rw [List.nil_append, List.append_nil], rfl, ?_⟩, hall, Or.inl rfl, ?_⟩
    · obtain ⟨b, hb, hbn⟩ := hb
      have hb' : MkvPart.block b ∈ mkvFine (lead ++ .part (.enter segmentId seg) :: (info ++ media)) := by
        simp [mkvFine] at hb ⊢; right; right; right; exact hb
      cases hfr : mkvTrackFrames (mkvFine (lead ++ .part (.enter segmentId seg) :: (info ++ media))) n with
      | nil =>
        exfalso
        unfold mkvTrackFrames at hfr
        rw [List.flatMap_eq_nil_iff] at hfr
        have := hfr _ hb'
        dsimp only at this
        rw [if_pos hbn] at this
        exact (hfull b hb').1 this
      | cons f l => exact ⟨f, l, rfl, hall f (by rw [hfr]; simp)⟩
    · intro a b e hb
      have := List.append_eq_nil_iff.1 e.symm
      exact absurd this.2 hb
    · intro hsh k hk
      rw [hsh, List.length_nil]
      omega
  · intro x hx
    rw [hsame]
    exact hx

/-! ### Results that are reported as right -/

/-- The CRC that is compared is that of the file. -/
theorem mkv_reported_crc {srs : Bytes} {flags : Nat} {tracks : MkvTracks} {files : TrackFiles} {atts : MkvAttach} {out : Bytes}
    {crc : BitVec 32} (h : mkvRebuild srs flags tracks files atts = .ok (out, crc)) : crc = crc32 out 0 := by
  unfold mkvRebuild mkvWalk at h
  simp only [bind_eq_ok, pure_eq_ok, Except.ok.injEq, Prod.mk.injEq] at h
  obtain ⟨s, hs, rfl, rfl⟩ := h
  refine mkvLoop_inv (fun s : MkvRebuild => s.crc = crc32 s.out 0) ?_ (by simp [crc32]) hs
  intro s e d r hs h
  unfold mkvRebuildItem at h
  split at h
  · simp only [Except.ok.injEq] at h
    rw [← h]; exact hs
  · dsimp only at h
    split at h
    · split at h
      · simp at h
      · split at h
        · simp at h
        · simp only [bind_eq_ok, pure_eq_ok, Except.ok.injEq] at h
          obtain ⟨⟨buff, rest⟩, _, h⟩ := h
          rw [← h]
          dsimp only
          rw [crc32_append, crc32_append, crc32_append, hs]
    · split at h
      · split at h
        · simp at h
        · split at h
          · simp at h
          · simp at h
          · simp only [Except.ok.injEq] at h
            rw [← h]
            dsimp only
            rw [crc32_append, crc32_append, hs]
      · simp only [Except.ok.injEq] at h
        rw [← h]
        dsimp only
        rw [crc32_append, crc32_append, hs]

/-- C66: whatever SRS and movie are given, a result is reported as right exactly when its CRC is the
one the SRS has. -/
theorem mkv_result_sound {srs main : Bytes} {ig : Bool} {r : SrsResult} (h : srsMkvReconstruct srs main ig = .ok r) :
    r.good = true ↔ (crc32 r.file 0).toNat = r.crc := by
  unfold srsMkvReconstruct at h
  simp only [bind_eq_ok] at h
  obtain ⟨⟨f, t0⟩, _, t1, _, ⟨fs, atts⟩, _, h⟩ := h
  dsimp only at h
  split at h
  · simp at h
  · split at h
    · simp at h
    · simp only [bind_eq_ok, pure_eq_ok, Except.ok.injEq] at h
      obtain ⟨⟨out, crc⟩, hr, h⟩ := h
      rw [← h]
      dsimp only
      rw [mkv_reported_crc hr]
      simp

end Rescene.Props
