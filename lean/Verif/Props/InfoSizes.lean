import Verif.Props.Info
import Verif.Props.ReconstructExample
/-
C16: the sizes `info` reports for the volumes.
-/
namespace Rescene.Props
open Rescene Rescene.Spec

theorem flatMap_length_const {α β : Type} (l : List α) (f : α → List β) (n : Nat) (h : ∀ x ∈ l, (f x).length = n) :
    (l.flatMap f).length = n * l.length := by
  induction l with
  | nil => simp
  | cons x t ih =>
    rw [List.flatMap_cons, List.length_append, h x (by simp), ih (fun y hy => h y (List.mem_cons_of_mem _ hy)), List.length_cons,
      Nat.mul_succ]
    omega

theorem recoveryData_length (data : Bytes) (rs ds : Nat) : (recoveryData data rs ds).length = 512 * rs + 2 * ds := by
  unfold recoveryData
  rw [List.length_append, flatMap_length_const _ _ 2, flatMap_length_const _ _ 512, List.length_range, List.length_range]
  · omega
  · intro j _
    apply xorAll_length
    intro s hs
    simp only [sliceSectors, List.mem_map] at hs
    obtain ⟨i, _, rfl⟩ := hs
    exact sectorAt_length data i
  · intro i _
    split
    · exact sectorCrc_length _
    · rfl

theorem complete_plain_size {b : Block} (h : Complete b) (h7 : b.hsize ≠ 7) (ht : b.btype = 0 ∨ 0x72 ≤ b.btype) (h74 : b.btype ≠ 0x74)
    (h78 : b.btype ≠ 0x78) (h7A : b.btype ≠ 0x7A) : b.addSize = sizeField b := by
  have hp := h.parsed
  rw [if_neg (fun hc => h7 hc.1), mkBlock_ok_iff] at hp
  obtain ⟨_, _, p3, _, _, _, _, add, p8, p9⟩ := hp
  have hadd : b.addSize = add := by
    unfold mkKind at p9
    by_cases c1 : b.btype = 0x73
    · rw [c1] at p9
      simp only [show ¬ (0x73 = 0x69) by decide, show ¬ (0x73 = 0x6A) by decide, show ¬ (0x73 = 0x71) by decide,
        show ¬ (0x73 = 0x6B) by decide, show ¬ (0x73 = 0x6C) by decide, if_false, if_true, bind_eq_ok, pure_eq_ok,
        Except.ok.injEq, Prod.mk.injEq] at p9
      obtain ⟨_, _, _, _, p9, _⟩ := p9
      exact p9.symm
    · rw [if_neg (by omega), if_neg (by omega), if_neg (by omega), if_neg (by omega), if_neg (by omega), if_neg c1, if_neg h74,
        if_neg h7A, if_neg h78] at p9
      split at p9
      · simp only [bind_eq_ok, pure_eq_ok, Except.ok.injEq, Prod.mk.injEq] at p9
        obtain ⟨_, _, _, _, p9, _⟩ := p9
        exact p9.symm
      · simp only [pure_eq_ok, Except.ok.injEq, Prod.mk.injEq] at p9
        exact p9.1.symm
  rw [hadd]
  unfold sizeField
  by_cases hf : hasFlag b.flags 0x8000 = true
  · rw [if_pos hf] at p8
    rw [if_pos (Or.inl hf)]
    exact (unpackAt_ofLe p8).symm
  · rw [if_neg hf] at p8
    rw [if_neg (by simp [hf, h74, h7A])]
    simpa using p8.symm

/-- Where a block of a volume ends. -/
theorem block_span {data : Bytes} {b : Block} {e a0 : Nat} {t : List (Block × Nat)} (hv : VolTiles data ((b, e) :: t) a0)
    (hnt : ¬ IsTail data b) (hr : Restorable data b e) (hu : UsualSize b) :
    Complete b ∧ e = a0 + (b.hsize + b.addSize) ∧ InfoOk b ∧ b.btype ≠ 0x6C ∧ (0x72 ≤ b.btype ∨ b.btype = 0) := by
  obtain ⟨h1, h2, h3, h4, h5⟩ := hv
  rcases h4 with ⟨t1, _⟩ | ⟨f1, f2, f3, f4, f5⟩
  · exact absurd t1 hnt
  rcases hr with hr | ⟨r1, r2, r3, r4, r5⟩
  · exact absurd hr hnt
  have hc := f5 r2
  have hty : 0x72 ≤ b.btype ∨ b.btype = 0 := by omega
  have hspan : e = a0 + (b.hsize + b.addSize) := by
    rw [f4, r2]
    by_cases h7 : b.hsize = 7
    · have hp := hc.parsed
      rw [if_pos ⟨h7, by omega⟩] at hp
      have : b.addSize = 0 := by rw [hp]; rfl
      rw [this]
      unfold keptLen skippedLen
      rw [if_pos (Or.inl h7), if_pos h7]
      omega
    · by_cases h74 : b.btype = 0x74
      · unfold keptLen skippedLen
        rw [if_pos (Or.inr (Or.inr (Or.inl h74))), if_neg h7, if_neg (by omega), if_pos h74, if_pos rfl]
        omega
      · by_cases hrec : isRecovery b = true
        · have h78 : b.btype = 0x78 ∨ b.btype = 0x7A := by
            unfold isRecovery at hrec
            simp only [Bool.or_eq_true, Bool.and_eq_true, beq_iff_eq] at hrec
            rcases hrec with hrec | hrec
            · exact Or.inl hrec
            · exact Or.inr hrec.1.1.1
          unfold keptLen skippedLen
          rw [if_pos (Or.inr (Or.inr (Or.inr hrec))), if_neg h7, if_neg (by omega), if_neg h74, if_pos hrec, if_pos (Or.inl rfl),
            hu.1 h78]
          omega
        · have hsz : b.addSize = sizeField b := by
            by_cases h78 : b.btype = 0x78 ∨ b.btype = 0x7A
            · exact hu.1 h78
            · exact complete_plain_size hc h7 (by omega) h74 (by omega) (by omega)
          unfold keptLen skippedLen
          rw [if_neg (by simp [h7, h74, hrec]; omega), if_neg h7, if_neg (by omega), if_neg h74, if_neg hrec, hsz]
          omega
  refine ⟨hc, hspan, ?_, by omega, hty⟩
  refine ⟨fun h => by omega, fun h => by omega, fun h => by omega, ?_, ?_, fun h => by omega⟩
  · intro h
    obtain ⟨f, hf, _⟩ := complete_packed hc h (r3 (Or.inl h))
    exact ⟨f, hf⟩
  · intro h
    obtain ⟨f, rr, hk⟩ := complete_newSub hc h (r3 (Or.inr (Or.inr h)))
    refine ⟨f, rr, hk, ?_⟩
    intro rs ds hrr
    have hs : sectorsOf b = some (rs, ds) := by unfold sectorsOf; rw [hk]; exact hrr
    have h5 := r5 rs ds hs
    have hrec : isRecovery b = true := r4.mpr (by rw [hs]; rfl)
    have hkept : keptLen b = 0 := by unfold keptLen; rw [if_pos (Or.inr (Or.inr (Or.inr hrec)))]
    by_cases hz : rs = 0
    · rw [if_pos hz] at h5
      subst hz
      have := hu.2 ds hs
      omega
    · rw [if_neg hz] at h5
      have hl := congrArg List.length h5.2
      rw [recoveryData_length] at hl
      unfold slice at hl
      simp only [List.length_take, List.length_drop] at hl
      omega

theorem sizes_tiles {lower : Str → Str} {data srr : Bytes} (tr : List (Block × Nat)) :
    ∀ (a0 : Nat) (bs more : List Block) (r : RarInfo), VolTiles data tr a0 → (∀ x ∈ tr, Restorable data x.1 x.2) →
      (∀ x ∈ tr, UsualSize x.1) → PiecesAre srr (tracePieces tr) bs → r.size = a0 →
      (∀ b ∈ bs, InfoOk b) ∧
      ∃ r', rarsOf lower (some r) (bs ++ more) = rarsOf lower (some r') more ∧ r'.size = data.length ∧ r'.key = r.key ∧ r'.name = r.name := by
  induction tr with
  | nil =>
    intro a0 bs more r hv _ _ hb hs
    cases bs with
    | nil =>
      simp only [VolTiles] at hv
      exact ⟨by simp, r, rfl, hs.trans hv, rfl, rfl⟩
    | cons _ _ => exact hb.elim
  | cons x t ih =>
    intro a0 bs more r hv hr hu hb hs
    obtain ⟨b, e⟩ := x
    cases bs with
    | nil => exact hb.elim
    | cons b' bs =>
      obtain ⟨hb1, hb2⟩ := hb
      dsimp only at hb1
      have step : InfoOk b' ∧ b'.btype ≠ 0x69 ∧ b'.btype ≠ 0x6A ∧ b'.btype ≠ 0x6B ∧ b'.btype ≠ 0x71 ∧
          r.size + (if b'.btype ≠ 0x6C then b'.hsize else 0) + b'.addSize = e := by
        by_cases ht : IsTail data b
        · obtain ⟨h1, h2, h3, h4, h5⟩ := hv
          rcases h4 with ⟨t1, t2, t3, t4, t5, t6⟩ | ⟨f1, _⟩
          · rw [if_pos (by exact t2)] at hb1
            obtain ⟨p1, p2, p3⟩ := hb1
            have hl : (b.raw.drop 11).length = data.length - a0 := by
              rw [t1.2.2.1, h1]; simp
            rw [p1]
            refine ⟨⟨fun h => by omega, fun h => by omega, fun h => by omega, fun h => by omega, fun h => by omega, fun h => by omega⟩,
              by omega, by omega, by omega, by omega, ?_⟩
            rw [if_neg (by simp), p3, hl]
            omega
          · exact absurd ht f1
        · obtain ⟨g1, g2, g3, g4, g5⟩ := block_span hv ht (hr (b, e) (by simp)) (hu (b, e) (by simp))
          rw [if_neg (by exact g4)] at hb1
          obtain ⟨p, rfl⟩ := hb1
          refine ⟨g3, ?_, ?_, ?_, ?_, ?_⟩
          · show b.btype ≠ _; omega
          · show b.btype ≠ _; omega
          · show b.btype ≠ _; omega
          · show b.btype ≠ _; omega
          · rw [if_pos (by exact g4)]
            show r.size + b.hsize + b.addSize = e
            omega
      obtain ⟨s1, s2, s3, s4, s5, s6⟩ := step
      obtain ⟨k1, r', k2, k3, k4, k5⟩ := ih e bs more (r.next b') hv.2.2.2.2 (fun x hx => hr x (List.mem_cons_of_mem _ hx))
        (fun x hx => hu x (List.mem_cons_of_mem _ hx)) hb2 s6
      refine ⟨?_, r', ?_, k3, k4, k5⟩
      · intro c hc
        rcases List.mem_cons.mp hc with rfl | hc
        · exact s1
        · exact k1 c hc
      · rw [List.cons_append, rarsOf.eq_def]
        dsimp only
        rw [if_neg s5, if_neg (by simp only [not_or]; exact ⟨s2, s3, s4⟩)]
        exact k2

/-- The key, name and size of a volume. -/
def sizeOf' (r : RarInfo) : Str × Str × Nat := (r.key, r.name, r.size)

theorem sizes_volumes {lower : Str → Str} {srr : Bytes} (vols : List (RarIn × Bytes)) : ∀ (cur : Option RarInfo) (bs more : List Block),
    (∀ v ∈ vols, GoodVolume v.2 ∧ ∀ tr, readTrace v.2 = .ok tr → ∀ x ∈ tr, UsualSize x.1) →
    PiecesAre srr (volumesPieces vols) bs →
    (∀ b ∈ bs, InfoOk b) ∧ ∃ rs cur', rarsOf lower cur (bs ++ more) = rs ++ rarsOf lower cur' more ∧
      (rs ++ cur'.toList).map sizeOf' = cur.toList.map sizeOf' ++ vols.map fun v => (volumeKey lower v.1.name, v.1.name, v.2.length) := by
  induction vols with
  | nil =>
    intro cur bs more _ hb
    cases bs with
    | nil => exact ⟨by simp, [], cur, rfl, by simp⟩
    | cons _ _ => exact hb.elim
  | cons v t ih =>
    intro cur bs more hv hb
    obtain ⟨⟨hm, tr, htr, hres⟩, hu⟩ := hv v (by simp)
    have hvp : volumesPieces (v :: t) = Piece.rarFile v.1.name :: (tracePieces tr ++ volumesPieces t) := by
      unfold volumesPieces
      rw [List.flatMap_cons]
      unfold volumePieces
      rw [htr]
      rfl
    rw [hvp] at hb
    cases bs with
    | nil => exact hb.elim
    | cons b bs =>
      obtain ⟨hb1, hb2⟩ := hb
      obtain ⟨b1, b2, rfl, p1, p2⟩ := pieces_append hb2
      obtain ⟨q1, q2, q3⟩ := hb1
      obtain ⟨g1, r', g2, g3, g4, g5⟩ := sizes_tiles (lower := lower) tr 0 b1 (b2 ++ more)
        ⟨basename (lower v.1.name), v.1.name, 0, b.pos + b.hsize, b.pos + b.hsize, none⟩ (volTiles_of_read hm htr) hres (hu tr htr) p1 rfl
      obtain ⟨k1, rs, cur', k2, k3⟩ := ih (some r') b2 more (fun w hw => hv w (List.mem_cons_of_mem _ hw)) p2
      refine ⟨?_, cur.toList ++ rs, cur', ?_, ?_⟩
      · intro c hc
        simp only [List.mem_cons, List.mem_append] at hc
        rcases hc with rfl | hc | hc
        · exact ⟨fun h => by omega, fun h => by omega, fun _ => ⟨_, q3⟩, fun h => by omega, fun h => by omega, fun h => by omega⟩
        · exact g1 c hc
        · exact k1 c hc
      · rw [List.cons_append, rarsOf.eq_def]
        dsimp only
        rw [if_pos q1, q3]
        dsimp only
        rw [List.append_assoc, List.append_assoc, g2, k2]
      · rw [List.append_assoc, List.map_append, k3]
        simp only [Option.toList_some, List.map_cons, List.map_nil, sizeOf', g3, g4, g5]
        rfl

theorem sizes_stored {lower : Str → Str} {srr : Bytes} (files : List (Str × Bytes)) : ∀ (bs more : List Block),
    PiecesAre srr (storedPieces files) bs →
    (∀ b ∈ bs, InfoOk b) ∧ rarsOf lower none (bs ++ more) = rarsOf lower none more := by
  induction files with
  | nil =>
    intro bs more hb
    cases bs with
    | nil => exact ⟨by simp, rfl⟩
    | cons _ _ => exact hb.elim
  | cons x t ih =>
    intro bs more hb
    cases bs with
    | nil => exact hb.elim
    | cons b bs =>
      obtain ⟨⟨h1, h2, _⟩, hb2⟩ := hb
      obtain ⟨k1, k2⟩ := ih bs more hb2
      refine ⟨?_, ?_⟩
      · intro c hc
        rcases List.mem_cons.mp hc with rfl | hc
        · exact ⟨fun h => by omega, fun _ => ⟨_, _, h2⟩, fun h => by omega, fun h => by omega, fun h => by omega, fun h => by omega⟩
        · exact k1 c hc
      · rw [List.cons_append, rarsOf.eq_def]
        dsimp only
        rw [if_neg (by omega), if_pos (by omega), k2]
        rfl

theorem sizes_osos {lower : Str → Str} {srr : Bytes} (ps : List Piece) : ∀ (cur : Option RarInfo) (bs : List Block),
    (∀ p ∈ ps, ∃ x h n, p = Piece.oso x h n) → PiecesAre srr ps bs →
    (∀ b ∈ bs, InfoOk b) ∧ rarsOf lower cur bs = cur.toList := by
  induction ps with
  | nil =>
    intro cur bs _ hb
    cases bs with
    | nil => exact ⟨by simp, rfl⟩
    | cons _ _ => exact hb.elim
  | cons p t ih =>
    intro cur bs ho hb
    cases bs with
    | nil => exact hb.elim
    | cons b bs =>
      obtain ⟨x, h, n, rfl⟩ := ho p (by simp)
      obtain ⟨⟨h1, h2⟩, hb2⟩ := hb
      obtain ⟨k1, k2⟩ := ih none bs (fun p hp => ho p (List.mem_cons_of_mem _ hp)) hb2
      refine ⟨?_, ?_⟩
      · intro c hc
        rcases List.mem_cons.mp hc with rfl | hc
        · exact ⟨fun h => by omega, fun h => by omega, fun h => by omega, fun h => by omega, fun h => by omega, fun _ => ⟨_, _, _, h2⟩⟩
        · exact k1 c hc
      · rw [rarsOf.eq_def]
        dsimp only
        rw [if_neg (by omega), if_pos (by omega), k2]
        simp

/-- C16: `info` of a created SRR reports exactly the volumes it was made from, in this order,
each with its size (the size of the file that is reconstructed), when their lower case names
without path are different. -/
theorem info_sizes {dig : Nat → Bool} {lower upper : Str → Str} {fuel : Nat} {fs : FS} {app : Str}
    {stored : List (Str × Path)} {vols : List (RarIn × Bytes)} {compressed oso : Bool} {srr : Bytes}
    (hcreate : createSrr dig lower fuel fs app stored (vols.map (·.1)) compressed oso = .ok srr)
    (hvols : ∀ v ∈ vols, fs v.1.exact = some v.2 ∧ GoodVolume v.2) (hne : vols ≠ [])
    (hsizes : ∀ v ∈ vols, ∀ tr, readTrace v.2 = .ok tr → ∀ x ∈ tr, UsualSize x.1)
    (hkeys : (vols.map fun v => volumeKey lower v.1.name).Nodup) :
    ∃ i, info lower upper srr = .ok i ∧
      i.rars.map (fun x => (x.1, x.2.name, x.2.size)) = vols.map fun v => (volumeKey lower v.1.name, v.1.name, v.2.length) := by
  obtain ⟨files, osos, f1, f2, f3, f4, f5⟩ := create_pieces hcreate hvols
  have hgood : ∀ v ∈ vols, GoodVolume v.2 := fun v hv => (hvols v hv).2
  obtain ⟨hb, blocks, r1, r2, r3, r4⟩ := written_blocks f5 (srr_length f5 hne hgood) (pieces_ok hgood f3)
  obtain ⟨b1, b23, rfl, p1, p23⟩ := pieces_append r4
  obtain ⟨b2, b3, rfl, p2, p3⟩ := pieces_append p23
  obtain ⟨s1, s2⟩ := sizes_stored (lower := lower) files b1 (b2 ++ b3) p1
  obtain ⟨v1, rs, cur, v2, v3⟩ := sizes_volumes (lower := lower) vols none b2 b3 (fun v hv => ⟨hgood v hv, hsizes v hv⟩) p2
  obtain ⟨o1, o2⟩ := sizes_osos (lower := lower) osos cur b3 f3 p3
  have hall : rarsOf lower none (hb :: (b1 ++ (b2 ++ b3))) = rs ++ cur.toList := by
    rw [rarsOf.eq_def]
    dsimp only
    rw [if_neg (by omega), if_pos (by omega), s2, v2, o2]
    rfl
  have hks : ((rs ++ cur.toList).map (·.key)) = vols.map fun v => volumeKey lower v.1.name := by
    have := congrArg (List.map (·.1)) v3
    simpa [List.map_map, sizeOf', Function.comp_def] using this
  have hok : ∀ b ∈ hb :: (b1 ++ (b2 ++ b3)), InfoOk b := by
    intro b hm
    simp only [List.mem_cons, List.mem_append] at hm
    rcases hm with rfl | hm | hm | hm
    · exact ⟨fun _ => ⟨_, r3⟩, fun h => by omega, fun h => by omega, fun h => by omega, fun h => by omega, fun h => by omega⟩
    · exact s1 b hm
    · exact v1 b hm
    · exact o1 b hm
  obtain ⟨i, hi⟩ := infoLoop_ok hok lower srr {}
  have hir := info_loop _ {} i [] hi rfl (by
    rw [List.nil_append]; show (List.map _ (rarsOf lower none _)).Nodup; rw [hall, hks]; exact hkeys)
  rw [List.nil_append] at hir
  have hir : i.rars = (rarsOf lower none (hb :: (b1 ++ (b2 ++ b3)))).map keyed := hir
  rw [hall] at hir
  have hkn : (i.rars.map (·.1)).Nodup := by
    rw [hir, List.map_map]
    show (List.map (fun r : RarInfo => r.key) _).Nodup
    rw [hks]; exact hkeys
  have hsfv := infoSfv_rars lower upper i.sfvEntries i.rars hkn
  refine ⟨{ i with rars := (infoSfv lower upper i.rars i.sfvEntries).1, sfvEntries := (infoSfv lower upper i.rars i.sfvEntries).2 }, ?_, ?_⟩
  · unfold info
    rw [r1, ok_bind, hi]
    rfl
  · have hg : ∀ d : List (Str × RarInfo), d.map (fun x => (x.1, x.2.name, x.2.size)) = (d.map noCrc).map (fun x => (x.1, x.2.name, x.2.size)) := by
      intro d; rw [List.map_map]; rfl
    show (infoSfv lower upper i.rars i.sfvEntries).1.map _ = _
    rw [hg, hsfv, ← hg, hir, List.map_map]
    have : ((fun x : Str × RarInfo => (x.1, x.2.name, x.2.size)) ∘ keyed) = sizeOf' := rfl
    rw [this, v3]
    rfl

/-- Whether all blocks have the usual sizes. -/
def usualB (data : Bytes) : Bool :=
  match readTrace data with
  | .ok tr => tr.all fun x => decide (x.1.btype = 0x78 ∨ x.1.btype = 0x7A → x.1.addSize = sizeField x.1) &&
      (match sectorsOf x.1 with
        | some (rs, ds) => decide (rs = 0 → ds = 0)
        | none => true)
  | .error _ => false

theorem usual_of_check {data : Bytes} (h : usualB data = true) : ∀ tr, readTrace data = .ok tr → ∀ x ∈ tr, UsualSize x.1 := by
  intro tr htr x hx
  unfold usualB at h
  rw [htr] at h
  have h := List.all_eq_true.mp h x hx
  simp only [Bool.and_eq_true, decide_eq_true_eq] at h
  refine ⟨h.1, ?_⟩
  intro ds hs
  have h2 := h.2
  rw [hs] at h2
  simpa using h2

set_option maxRecDepth 100000 in
/-- The volumes of the reconstruction example (with a recovery record) have their sizes. -/
example : ∃ srr i, exCreated = .ok srr ∧ info id id srr = .ok i ∧
    i.rars.map (fun x => (x.1, x.2.name, x.2.size)) =
      [(str "a.rar", str "cd1/a.rar", exVol1.length), (str "a.r00", str "cd1/a.r00", exVol2.length)] := by
  have hok : exCreated.isOk = true := by decide +kernel
  cases hc : exCreated with
  | error e => rw [hc] at hok; simp [Except.isOk, Except.toBool] at hok
  | ok srr =>
    obtain ⟨i, h1, h2⟩ := info_sizes (lower := id) (upper := id) (vols := exVols) hc
      (by
        intro v hv
        simp only [exVols, List.mem_cons, List.not_mem_nil, or_false] at hv
        rcases hv with rfl | rfl
        · exact ⟨by decide +kernel, exVol1_good⟩
        · exact ⟨by decide +kernel, exVol2_good⟩)
      (by simp [exVols])
      (by
        intro v hv
        simp only [exVols, List.mem_cons, List.not_mem_nil, or_false] at hv
        rcases hv with rfl | rfl
        · exact usual_of_check (by decide +kernel)
        · exact usual_of_check (by decide +kernel))
      (by decide +kernel)
    refine ⟨srr, i, rfl, h1, h2.trans ?_⟩
    simp only [exVols, List.map_cons, List.map_nil]
    rw [show volumeKey id (str "cd1/a.rar") = str "a.rar" by decide +kernel,
      show volumeKey id (str "cd1/a.r00") = str "a.r00" by decide +kernel]

end Rescene.Props
