import Verif.Props.Reconstruct
import Verif.Spec.OneVolume
/-
C109: rebuilding one volume, or some of them.
-/
namespace Rescene.Props
open Rescene Rescene.Spec

theorem endsWith_suffix {s p : Str} : endsWith s p = true ↔ p <:+ s := by
  unfold endsWith
  simp

theorem star_end {part : Str} : endsWith part [0x2A] = true ↔ ∃ pre, part = pre ++ [0x2A] := by
  rw [endsWith_suffix]
  constructor
  · rintro ⟨pre, h⟩; exact ⟨pre, h.symm⟩
  · rintro ⟨pre, h⟩; exact ⟨pre, h.symm⟩

theorem not_asked {a : RecArgs} {name : Str} (h : NotAsked a.part name) : skipped a name = true ∧ inSubset a name = false := by
  obtain ⟨h1, h2, h3⟩ := h
  have h2' : endsWith name a.part = false := by
    cases hc : endsWith name a.part with
    | false => rfl
    | true => exact absurd (endsWith_suffix.1 hc) h2
  have h3' : ¬ (endsWith a.part [0x2A] = true ∧ a.part.dropLast.isPrefixOf name = true) := by
    rintro ⟨c1, c2⟩
    obtain ⟨pre, hp⟩ := star_end.1 c1
    rw [hp, List.dropLast_concat, List.isPrefixOf_iff_prefix] at c2
    exact h3 pre hp c2
  constructor
  · unfold skipped
    simp only [ne_eq, h1, not_false_eq_true, h2', true_and, decide_eq_true_eq]
    exact h3'
  · unfold inSubset
    cases hc : (decide (a.part ≠ []) && endsWith a.part [0x2A] && a.part.dropLast.isPrefixOf name) with
    | false => rfl
    | true =>
      simp only [Bool.and_eq_true] at hc
      exact absurd ⟨hc.1.2, hc.2⟩ h3'

theorem asked_alone {a : RecArgs} {name : Str} (h : AskedAlone a.part name) : skipped a name = false ∧ inSubset a name = false := by
  obtain ⟨h1, h2, h3⟩ := h
  have h3' : ¬ (endsWith a.part [0x2A] = true ∧ a.part.dropLast.isPrefixOf name = true) := by
    rintro ⟨c1, c2⟩
    obtain ⟨pre, hp⟩ := star_end.1 c1
    rw [hp, List.dropLast_concat, List.isPrefixOf_iff_prefix] at c2
    exact h3 pre hp c2
  constructor
  · unfold skipped
    simp [endsWith_suffix.2 h2]
  · unfold inSubset
    cases hc : (decide (a.part ≠ []) && endsWith a.part [0x2A] && a.part.dropLast.isPrefixOf name) with
    | false => rfl
    | true =>
      simp only [Bool.and_eq_true] at hc
      exact absurd ⟨hc.1.2, hc.2⟩ h3'

theorem asked_subset {a : RecArgs} {name : Str} (h : AskedSubset a.part name) : skipped a name = false ∧ inSubset a name = true := by
  obtain ⟨pre, h1, h2⟩ := h
  have c1 : endsWith a.part [0x2A] = true := star_end.2 ⟨pre, h1⟩
  have c2 : a.part.dropLast.isPrefixOf name = true := by
    rw [h1, List.dropLast_concat, List.isPrefixOf_iff_prefix]; exact h2
  have c3 : a.part ≠ [] := by rw [h1]; simp
  constructor
  · unfold skipped
    simp [c1, c2, c3]
  · unfold inSubset
    simp [c1, c2, c3]

/-! ### Volumes that are left out -/

/-- The state behind parts that are left out. -/
def skipParts (s : RecState) (ps : List FilePart) : RecState := ps.foldl (fun s p => recSkipFile s p.f) s

theorem skip_tile {a : RecArgs} {s : RecState} {data srr : Bytes} {b b' : Block} {e a0 : Nat} {t : List (Block × Nat)}
    (hv : VolTiles data ((b, e) :: t) a0) (hr : Restorable data b e) (hb' : PieceIs srr (blockPiece b) b') (hs : s.skipVolume = true) :
    recBlock a s b' = .ok (skipParts s (fileParts data [(b, e)]), true) := by
  obtain ⟨h1, h2, h3, h4, h5⟩ := hv
  rcases h4 with ⟨t1, t2, t3, t4, t5, t6⟩ | ⟨f1, f2, f3, f4, f5⟩
  · have hpc : blockPiece b = .padding (b.raw.drop 11) := if_pos t2
    rw [hpc] at hb'
    obtain ⟨p1, p2, _⟩ := hb'
    have hfp : fileParts data [(b, e)] = [] := by
      unfold fileParts
      rw [List.flatMap_cons]
      dsimp only
      rw [t1.1]
      rfl
    rw [hfp]
    unfold recBlock recOther isRecBlock
    rw [p1]
    simp [hs, skipParts]
  · rcases hr with hr | ⟨r1, r2, r3, r4, r5⟩
    · exact absurd hr f1
    have hc := f5 r2
    have hpc : blockPiece b = .rar b := if_neg (by omega)
    rw [hpc] at hb'
    obtain ⟨pos, hb'⟩ := hb'
    have ebt : b'.btype = b.btype := by rw [hb']; rfl
    have ebk : b'.kind = b.kind := by rw [hb']; rfl
    have ebh : b'.hsize = b.hsize := by rw [hb']; rfl
    have hrb : recBlock a s b' = (do let s ← recOther a s b'; return (s, true)) := by
      unfold recBlock
      rw [ebt, if_neg (by omega), if_neg (by omega), if_neg (by omega)]
    rw [hrb]
    by_cases h74 : b.btype = 0x74
    · obtain ⟨f, hk, ha⟩ := complete_packed hc h74 (r3 (Or.inl h74))
      have hfp : fileParts data [(b, e)] = [⟨b.flags, f, slice data (b.pos + b.raw.length) e⟩] := by
        unfold fileParts
        rw [List.flatMap_cons]
        dsimp only
        rw [hk]
        rfl
      rw [hfp]
      unfold recOther isRecBlock
      rw [ebt, if_neg (by omega)]
      simp only [ok_bind, h74]
      rw [if_neg (by simp), if_pos trivial, ebk, hk]
      dsimp only
      unfold recFile
      rw [if_pos hs]
      rfl
    · have hfp : fileParts data [(b, e)] = [] := by
        unfold fileParts
        rw [List.flatMap_cons]
        dsimp only
        split
        · rename_i f hk
          exact absurd (kind_packed_type hc hk) h74
        · rfl
      rw [hfp]
      obtain ⟨rec, hir⟩ : ∃ rec, isRecBlock b' = .ok rec := by
        unfold isRecBlock
        rw [ebt, ebk]
        by_cases h7a : b.btype = 0x7A
        · obtain ⟨f, rr, hk⟩ := complete_newSub hc h7a (r3 (Or.inr (Or.inr h7a)))
          rw [if_pos h7a, hk]
          exact ⟨_, rfl⟩
        · rw [if_neg h7a]
          exact ⟨_, rfl⟩
      unfold recOther
      rw [hir, ok_bind, if_neg (by simp [hs]), ebt, if_neg h74, if_pos (by rw [ebh]; exact r1), if_neg (by simp [hs])]
      rfl

theorem skipParts_skip (ps : List FilePart) : ∀ s, (skipParts s ps).skipVolume = s.skipVolume := by
  induction ps with
  | nil => intro s; rfl
  | cons p ps ih => intro s; exact ih (recSkipFile s p.f)

theorem skipParts_append (s : RecState) (ps qs : List FilePart) : skipParts s (ps ++ qs) = skipParts (skipParts s ps) qs := by
  unfold skipParts; rw [List.foldl_append]

theorem skip_tiles {a : RecArgs} {data srr : Bytes} (tr : List (Block × Nat)) : ∀ (s : RecState) (a0 : Nat) (bs more : List Block),
    VolTiles data tr a0 → (∀ x ∈ tr, Restorable data x.1 x.2) → PiecesAre srr (tr.map fun x => blockPiece x.1) bs → s.skipVolume = true →
    recLoop a s (bs ++ more) = recLoop a (skipParts s (fileParts data tr)) more := by
  induction tr with
  | nil =>
    intro s a0 bs more _ _ hb _
    cases bs with
    | nil => rfl
    | cons _ _ => exact hb.elim
  | cons x t ih =>
    intro s a0 bs more hv hr hb hs
    obtain ⟨b, e⟩ := x
    cases bs with
    | nil => exact hb.elim
    | cons b' bs =>
      obtain ⟨hb1, hb2⟩ := hb
      have hfp : fileParts data ((b, e) :: t) = fileParts data [(b, e)] ++ fileParts data t := by
        simp [fileParts, List.flatMap_cons]
      rw [List.cons_append, recLoop, skip_tile hv (hr (b, e) (by simp)) hb1 hs, ok_bind, hfp, skipParts_append]
      exact ih _ e bs more hv.2.2.2.2 (fun x hx => hr x (List.mem_cons_of_mem _ hx)) hb2 (by rw [skipParts_skip]; exact hs)

/-- Volumes that are left out. -/
theorem skip_volumes {a : RecArgs} {srr : Bytes} (vols : List (RarIn × Bytes)) : ∀ (s : RecState) (bs more : List Block),
    (∀ v ∈ vols, GoodVolume v.2 ∧ NotAsked a.part v.1.name) → PiecesAre srr (volumesPieces vols) bs →
    recLoop a s (bs ++ more) =
      recLoop a (if vols = [] then s else skipParts { s with skipVolume := true } (vols.flatMap fun v => volumeParts v.2)) more := by
  induction vols with
  | nil =>
    intro s bs more _ hb
    cases bs with
    | nil => rfl
    | cons _ _ => exact hb.elim
  | cons v t ih =>
    intro s bs more hv hb
    obtain ⟨⟨hm, tr, htr, hres⟩, hn⟩ := hv v (by simp)
    unfold volumesPieces at hb
    rw [List.flatMap_cons, List.cons_append] at hb
    cases bs with
    | nil => exact hb.elim
    | cons b0 bs =>
      obtain ⟨⟨p1, p2, p3⟩, hb⟩ := hb
      obtain ⟨b1, b2, rfl, hb1, hb2⟩ := pieces_append hb
      obtain ⟨hsk, hsub⟩ := not_asked hn
      have hs1 : recBlock a s b0 = .ok ({ s with skipVolume := true }, true) := by
        unfold recBlock
        rw [p1, if_neg (by decide), if_neg (by decide), if_pos rfl, p3]
        dsimp only
        unfold recVolume
        rw [hsk, hsub]
        dsimp only
        rw [if_neg (by simp), Bool.or_false]
        rfl
      have hvt := volTiles_of_read hm htr
      have hvp : volumeParts v.2 = fileParts v.2 tr := by unfold volumeParts; rw [htr]
      have hpc : volumePieces v.2 = tr.map fun x => blockPiece x.1 := by unfold volumePieces; rw [htr]; rfl
      rw [hpc] at hb1
      rw [if_neg (by simp), List.flatMap_cons, hvp, skipParts_append, List.cons_append, recLoop, hs1, ok_bind, List.append_assoc]
      dsimp only
      rw [if_pos rfl, skip_tiles tr _ 0 b1 (b2 ++ more) hvt hres hb1 rfl, ih _ b2 more (fun w hw => hv w (List.mem_cons_of_mem _ hw)) hb2]
      split
      · rename_i ht
        subst ht
        rfl
      · congr 2
        have := skipParts_skip (fileParts v.2 tr) { s with skipVolume := true }
        cases hx : skipParts { s with skipVolume := true } (fileParts v.2 tr)
        rw [hx] at this
        dsimp only at this
        subst this
        rfl

theorem skipParts_state (ps : List FilePart) : ∀ s, ∃ name n r, skipParts s ps = { s with srcName := name, skipOffset := n, running := r } ∧
    n = packedAtEnd s.srcName s.skipOffset ps ∧ (name = if ps = [] then s.srcName else ps.getLast?.map (·.f.name)) ∧
    r = if ps = [] then s.running else 0 := by
  induction ps with
  | nil => intro s; exact ⟨s.srcName, s.skipOffset, s.running, rfl, rfl, rfl, rfl⟩
  | cons p ps ih =>
    intro s
    obtain ⟨name, n, r, h1, h2, h3, h4⟩ := ih (recSkipFile s p.f)
    refine ⟨name, n, r, ?_, ?_, ?_, ?_⟩
    · show skipParts (recSkipFile s p.f) ps = _
      rw [h1]
      rfl
    · rw [h2, packedAtEnd]
      unfold recSkipFile
      dsimp only
      by_cases hc : s.srcName = some p.f.name
      · simp [hc]
      · simp [hc]
    · rw [h3]
      cases ps with
      | nil => rfl
      | cons q ps => rw [if_neg (by simp), if_neg (by simp), List.getLast?_cons_cons]
    · rw [h4]
      cases ps with
      | nil => rfl
      | cons q ps => rw [if_neg (by simp), if_neg (by simp)]

/-! ### One volume -/

/-- A file that is opened. -/
theorem open_file {a : RecArgs} {fs fs1 : FS} {written : List Path} {p : FilePart} {content : Bytes} (hd : p.flags &&& 0xE0 ≠ 0xE0)
    (h : SourceIs a fs1 written p content) (hf : ∀ q, q ∉ written → fs q = fs1 q) :
    openSource a fs p.flags p.f = .ok (.file content 0) := by
  unfold SourceIs at h
  unfold openSource
  rw [if_neg hd] at h ⊢
  obtain ⟨name, d, h1, h2, h3, h4, h5⟩ := h
  have hl : locateFile a fs p.f = .ok d := by
    unfold locateFile locatePath
    have hn : hintedName a p.f = .ok name := by
      unfold hintedName
      rcases h1 with h1 | ⟨h1, h1'⟩
      · rw [h1]
      · rw [h1]; exact h1'
    have hfs : fs (a.abspath (posixJoin2 a.inFolder name)) = some d := by rw [hf _ h2]; exact h3
    rw [hn]
    simp only [ok_bind, hfs, Option.isNone_some, Bool.false_eq_true, if_false, pure_eq_ok]
    rw [if_neg (by omega)]
  unfold sourceData
  rw [hl, ok_bind]
  by_cases hm : p.f.method = 0x30
  · rw [if_pos hm] at h5
    rw [if_neg (fun hc => hc hm), h5]
    rfl
  · rw [if_neg hm] at h5
    rw [if_pos hm, h5]

theorem alone_file {a : RecArgs} {s : RecState} {out : Path} {done : Bytes} {fs fs1 : FS} {written : List Path} {b : Block} {f : FileFields}
    {data : Bytes} (h : Writing s out done fs) (hpart : a.part ≠ []) (hset : s.partialSet = false)
    (hf : ∀ q, q ∉ written → fs q = fs1 q) (ho : out ∈ written) (hl : data.length = f.packedSize)
    (hp : ComesFrom a fs1 written s.skipOffset ⟨b.flags, f, data⟩) :
    ∃ s', recFile a s b f = .ok s' ∧ Writing s' out (done ++ (b.raw ++ data)) fs ∧ s'.partialSet = false ∧ s'.skipOffset = s.skipOffset := by
  obtain ⟨hd, content, hs, hdata⟩ := hp
  obtain ⟨s1, w1, w2, w3, w4⟩ := write_step h b.raw
  have w5 : s1.partialSet = false ∧ s1.skipOffset = s.skipOffset := by rw [w4]; exact ⟨hset, rfl⟩
  have hfs : ∀ q, q ∉ written → s1.fs q = fs1 q := by
    intro q hq
    rw [w2.others q (fun hc => hq (hc ▸ ho))]
    exact hf q hq
  have o1 := open_file hd hs hfs
  dsimp only at o1 hdata
  unfold recFile
  rw [if_neg (by rw [h.keep]; simp), w1, ok_bind]
  have hop : recOpen a s1 b.flags f = .ok { s1 with srcName := some f.name, running := 0, src := some (.file content 0) } := by
    unfold recOpen
    rw [if_pos (Or.inr ⟨hpart, w5.1⟩)]
    show (openSource a s1.fs b.flags f >>= _) = _
    rw [o1]
    rfl
  rw [hop, ok_bind]
  unfold recData
  dsimp only
  rw [if_pos ⟨hpart, w5.1⟩]
  simp only [Src.seek, ok_bind]
  have hg : Gives (.file content s1.skipOffset) (content.drop s1.skipOffset) := rfl
  obtain ⟨src', r1, r2, r3⟩ := repack_exact b.flags f _ _ 0 a.skipCrc hg
  have hfill : filled (content.drop s1.skipOffset) f.packedSize = data := by
    unfold filled
    rw [w5.2, ← hdata]
    have : f.packedSize - (content.drop s.skipOffset).length = 0 := by
      have := congrArg List.length hdata
      rw [hl, List.length_take] at this
      omega
    rw [this]
    simp
  rw [hfill] at r1
  rw [r1, ok_bind]
  dsimp only
  have hw : ∀ x y z, ({ s1 with srcName := x, running := y, src := z } : RecState).write data =
      .ok { s1 with srcName := x, running := y, src := z, fs := appendTo s1.fs out data } := by
    intro x y z
    unfold RecState.write
    rw [w2.isOut]
  rw [hw, ok_bind]
  refine ⟨_, rfl, ⟨?_, ?_, ?_, ?_, ?_⟩, ?_, ?_⟩
  · simp only [w2.isOut]
  · simp [appendTo, FS.set, w2.file]
  · intro q hq
    simp only [appendTo, FS.set, if_neg hq]
    exact w2.others q hq
  · simp only [w2.rebuild]
  · simp only [w2.keep]
  · exact w5.1
  · exact w5.2

theorem alone_tiles {a : RecArgs} {out : Path} {fs fs1 : FS} {written : List Path} {data srr : Bytes} (hpart : a.part ≠ [])
    (hf : ∀ q, q ∉ written → fs q = fs1 q) (ho : out ∈ written) (tr : List (Block × Nat)) :
    ∀ (s : RecState) (a0 : Nat) (bs more : List Block),
      VolTiles data tr a0 → (a0 = 0 → ∀ x ∈ tr.head?, isRecovery x.1 = false) → (∀ x ∈ tr, Restorable data x.1 x.2) →
      PiecesAre srr (tr.map fun x => blockPiece x.1) bs → Writing s out (data.take a0) fs → s.partialSet = false →
      (∀ p ∈ fileParts data tr, ComesFrom a fs1 written s.skipOffset p) →
      ∃ s', recLoop a s (bs ++ more) = recLoop a s' more ∧ Writing s' out data fs := by
  induction tr with
  | nil =>
    intro s a0 bs more hv _ _ hb hw _ _
    cases bs with
    | nil =>
      refine ⟨s, rfl, ?_⟩
      simp only [VolTiles] at hv
      rw [hv, List.take_length] at hw
      exact hw
    | cons _ _ => exact hb.elim
  | cons x t ih =>
    intro s a0 bs more hv h72 hr hb hw hset hp
    obtain ⟨b, e⟩ := x
    cases bs with
    | nil => exact hb.elim
    | cons b' bs =>
      obtain ⟨hb1, hb2⟩ := hb
      have hfp : fileParts data ((b, e) :: t) = fileParts data [(b, e)] ++ fileParts data t := by
        simp [fileParts, List.flatMap_cons]
      rw [hfp] at hp
      obtain ⟨s1, g1, g2, g3, g4⟩ : ∃ s1, recBlock a s b' = .ok (s1, true) ∧ Writing s1 out (data.take e) fs ∧ s1.partialSet = false ∧
          s1.skipOffset = s.skipOffset := by
        rcases rec_tile_cases (a := a) hv (fun hc => h72 hc (b, e) rfl) (hr (b, e) (by simp)) hb1 hw with ⟨f, part, h1, h2, h3, h4⟩ | ⟨h1, s', h2, h3, h4⟩
        · rw [h1] at hp
          obtain ⟨s', k1, k2, k3, k4⟩ := alone_file (b := b') hw hpart hset hf ho h2 (hp _ (by simp))
          exact ⟨s', by rw [h3, k1]; rfl, by rw [h4]; exact k2, k3, k4⟩
        · exact ⟨s', h2, h3, by rw [h4]; exact hset, by rw [h4]⟩
      have hpos : 0 < e := by have := hv.2.1; omega
      obtain ⟨s2, k1, k2⟩ := ih s1 e bs more hv.2.2.2.2 (fun hc => by omega) (fun x hx => hr x (List.mem_cons_of_mem _ hx)) hb2 g2 g3
        (fun p hp' => by rw [g4]; exact hp p (List.mem_append_right _ hp'))
      refine ⟨s2, ?_, k2⟩
      rw [List.cons_append, recLoop, g1, ok_bind]
      exact k1

/-- The packed data of a part has the length its header gives. -/
theorem tiles_part_length {data : Bytes} (tr : List (Block × Nat)) : ∀ a0, VolTiles data tr a0 → (∀ x ∈ tr, Restorable data x.1 x.2) →
    ∀ p ∈ fileParts data tr, p.data.length = p.f.packedSize := by
  induction tr with
  | nil => intro a0 _ _ p hp; simp [fileParts] at hp
  | cons x t ih =>
    intro a0 hv hr p hp
    obtain ⟨b, e⟩ := x
    have hfp : fileParts data ((b, e) :: t) = fileParts data [(b, e)] ++ fileParts data t := by
      simp [fileParts, List.flatMap_cons]
    rw [hfp, List.mem_append] at hp
    rcases hp with hp | hp
    · obtain ⟨h1, h2, h3, h4, h5⟩ := hv
      unfold fileParts at hp
      rw [List.flatMap_cons] at hp
      dsimp only at hp
      split at hp
      · rename_i f hk
        simp only [List.flatMap_nil, List.append_nil, List.mem_singleton] at hp
        subst hp
        dsimp only
        rcases h4 with ⟨t1, _⟩ | ⟨f1, f2, f3, f4, f5⟩
        · rw [t1.1] at hk; cases hk
        · rcases hr (b, e) (by simp) with hr' | ⟨r1, r2, r3, r4, r5⟩
          · exact absurd hr' f1
          · have hc := f5 r2
            have h74 := kind_packed_type hc hk
            obtain ⟨f', hk', ha⟩ := complete_packed hc h74 (r3 (Or.inl h74))
            rw [hk] at hk'
            cases hk'
            have hsk : skippedLen .rar none b = f.packedSize := by
              unfold skippedLen
              rw [if_neg (r3 (Or.inl h74)), if_neg (by omega), if_pos h74, if_pos rfl, ha]
            rw [slice, List.length_drop, List.length_take, h1]
            omega
      · simp at hp
    · exact ih e hv.2.2.2.2 (fun x hx => hr x (List.mem_cons_of_mem _ hx)) p hp

theorem part_length {data : Bytes} (h : GoodVolume data) : ∀ p ∈ volumeParts data, p.data.length = p.f.packedSize := by
  obtain ⟨hm, tr, htr, hres⟩ := h
  unfold volumeParts
  rw [htr]
  exact tiles_part_length tr 0 (volTiles_of_read hm htr) hres

theorem atEnd_one {name : Str} (ps : List FilePart) : ∀ n, (∀ p ∈ ps, p.f.name = name ∧ p.data.length = p.f.packedSize) →
    packedAtEnd (some name) n ps = n + (ps.flatMap (·.data)).length := by
  induction ps with
  | nil => intro n _; simp [packedAtEnd]
  | cons p ps ih =>
    intro n h
    obtain ⟨h1, h2⟩ := h p (by simp)
    rw [packedAtEnd, h1, if_pos rfl, ih _ (fun q hq => h q (List.mem_cons_of_mem _ hq)), List.flatMap_cons, List.length_append, h2, Nat.add_assoc]

theorem atEnd_first {name : Str} (ps : List FilePart) (h : ∀ p ∈ ps, p.f.name = name ∧ p.data.length = p.f.packedSize) :
    packedAtEnd none 0 ps = (ps.flatMap (·.data)).length := by
  cases ps with
  | nil => rfl
  | cons p ps =>
    obtain ⟨h1, h2⟩ := h p (by simp)
    rw [packedAtEnd, h1, if_neg (by simp), atEnd_one ps _ (fun q hq => h q (List.mem_cons_of_mem _ hq)), List.flatMap_cons, List.length_append, h2]

/-- The blocks of volumes in a list of blocks. -/
theorem volumes_append (vs ws : List (RarIn × Bytes)) : volumesPieces (vs ++ ws) = volumesPieces vs ++ volumesPieces ws := by
  unfold volumesPieces; rw [List.flatMap_append]

/-- C109: one volume is rebuilt alone.  The SRR was made from volumes of which exactly one is asked for by the end of its name.
It comes back byte for byte when each of its parts is found in its file at the same place: behind what the volumes left out
have of the file they end with.  No other file than the volume and the extracted files is changed. -/
theorem one_volume_partial {dig : Nat → Bool} {lower : Str → Str} {fuel : Nat} {fs0 : FS} {app : Str}
    {stored : List (Str × Path)} {before after : List (RarIn × Bytes)} {v : RarIn × Bytes} {compressed oso : Bool} {srr : Bytes}
    (hcreate : createSrr dig lower fuel fs0 app stored ((before ++ v :: after).map (·.1)) compressed oso = .ok srr)
    (hvols : ∀ w ∈ before ++ v :: after, fs0 w.1.exact = some w.2 ∧ GoodVolume w.2)
    {a : RecArgs} {fs1 : FS} (hsrr : fs1 a.srr = some srr)
    (hv : AskedAlone a.part v.1.name) (hnot : ∀ w ∈ before ++ after, NotAsked a.part w.1.name)
    {ext : List Path}
    (hext : a.extractFiles = true → ∀ x ∈ stored, ∃ p ∈ ext, opath x.1 a.extractPaths a.outFolder = .ok p ∧ p ≠ a.srr)
    {out : Path} (hout : opath v.1.name a.extractPaths a.outFolder = .ok out)
    (hfree : fs1 out = none ∧ out ∉ ext ∨ a.ask out = true)
    (hsrc : ∀ p ∈ volumeParts v.2, ComesFrom a fs1 (out :: ext) (packedAtEnd none 0 (before.flatMap fun w => volumeParts w.2)) p) :
    ∃ fs2 reports, reconstruct a fs1 = .ok (fs2, reports, true) ∧ fs2 out = some v.2 ∧
      ∀ q, q ≠ out → q ∉ ext → fs2 q = fs1 q := by
  obtain ⟨files, osos, f1, f2, f3, f4, f5⟩ := create_pieces hcreate hvols
  obtain ⟨s1, b2, b3, e0, p2, p3, k0, k5⟩ := written_start f5 f3 (fun w hw => (hvols w hw).2) (by simp) hsrr (ext := ext) (fun hx x hxm => by
    have : x.1 ∈ stored.map (·.1) := by rw [← f1]; exact List.mem_map_of_mem hxm
    obtain ⟨y, hy, hyx⟩ := List.mem_map.mp this
    obtain ⟨p, e1, e2, e3⟩ := hext hx y hy
    exact ⟨p, e1, by rw [← hyx]; exact e2, e3⟩)
  rw [e0]
  rw [volumes_append] at p2
  obtain ⟨c1, c2, rfl, q1, q2⟩ := pieces_append p2
  unfold volumesPieces at q2
  rw [List.flatMap_cons, List.cons_append] at q2
  cases c2 with
  | nil => exact q2.elim
  | cons b0 c2 =>
    obtain ⟨⟨v1, v2, v3⟩, q2⟩ := q2
    obtain ⟨d1, d2, rfl, r1, r2⟩ := pieces_append q2
    rw [List.append_assoc, skip_volumes before s1 c1 _ (fun w hw => ⟨(hvols w (List.mem_append_left _ hw)).2, hnot w (List.mem_append_left _ hw)⟩) q1]
    -- the state behind the volumes left out
    obtain ⟨s2, hs2, g1, g2, g3, g4, g5⟩ : ∃ s2, s2 = (if before = [] then s1 else
        skipParts { s1 with skipVolume := true } (before.flatMap fun w => volumeParts w.2)) ∧ s2.fs = s1.fs ∧ s2.rarName = [] ∧
        s2.partialSet = false ∧ s2.skipOffset = packedAtEnd none 0 (before.flatMap fun w => volumeParts w.2) ∧ True := by
      refine ⟨_, rfl, ?_⟩
      split
      · rename_i hb
        subst hb
        refine ⟨rfl, ?_, ?_, ?_, trivial⟩ <;> rw [k0] <;> rfl
      · obtain ⟨name, n, r, h1, h2, h3, h4⟩ := skipParts_state (before.flatMap fun w => volumeParts w.2) { s1 with skipVolume := true }
        rw [h1]
        refine ⟨rfl, ?_, ?_, ?_, trivial⟩
        · show s1.rarName = []
          rw [k0]
        · show s1.partialSet = false
          rw [k0]
        · dsimp only
          rw [h2]
          dsimp only
          have e1 : s1.srcName = none := by rw [k0]
          have e2 : s1.skipOffset = 0 := by rw [k0]
          rw [e1, e2]
    rw [← hs2]
    obtain ⟨hsk, hsub⟩ := asked_alone hv
    have hname : v.1.name ≠ [] := by
      intro hc
      rw [hc] at hout
      have hbad : opath [] a.extractPaths a.outFolder = .error .valueError := by
        unfold opath osFileNameSrr joinpath
        rfl
      rw [hbad] at hout
      simp at hout
    obtain ⟨hm, tr, htr, hres⟩ := (hvols v (by simp)).2
    obtain ⟨s3, hs3, hw3, hp3, ho3⟩ : ∃ s3, recBlock a s2 b0 = .ok (s3, true) ∧ Writing s3 out [] s2.fs ∧ s3.partialSet = false ∧
        s3.skipOffset = s2.skipOffset := by
      unfold recBlock
      rw [v1, if_neg (by decide), if_neg (by decide), if_pos rfl, v3]
      dsimp only
      unfold recVolume
      rw [hsk, hsub]
      dsimp only
      rw [if_pos ⟨by rw [g2]; exact fun hc => hname hc.symm, rfl⟩, hout, ok_bind]
      have hcond : ((s2.fs out).isNone || a.ask out) = true := by
        rcases hfree with ⟨h, h'⟩ | h
        · rw [g1, k5 out (fun _ => h'), h]; rfl
        · simp [h]
      rw [if_pos hcond]
      refine ⟨_, rfl, ⟨rfl, by simp [FS.set], ?_, ?_, rfl⟩, ?_, rfl⟩
      · intro q hq; simp [FS.set, hq]
      · show hasFlag b0.flags 1 = true
        rw [v2]; decide
      · show (s2.partialSet || false) = false
        rw [g3]; rfl
    have hvt := volTiles_of_read hm htr
    have hvp : volumeParts v.2 = fileParts v.2 tr := by unfold volumeParts; rw [htr]
    have hpc : volumePieces v.2 = tr.map fun x => blockPiece x.1 := by unfold volumePieces; rw [htr]; rfl
    rw [hpc] at r1
    obtain ⟨s4, j1, j2⟩ := alone_tiles (a := a) (fs := s2.fs) (fs1 := fs1) (written := out :: ext) hv.1
      (by
        intro q hq
        simp only [List.mem_cons, not_or] at hq
        rw [g1]
        exact k5 q (fun _ => hq.2))
      List.mem_cons_self tr s3 0 d1 (d2 ++ b3) hvt (fun _ => first_block hm hvt hres) hres r1 (by simpa using hw3) hp3
      (by rw [ho3, g4, ← hvp]; exact hsrc)
    rw [List.cons_append, recLoop, hs3, ok_bind]
    dsimp only
    rw [if_pos rfl, List.append_assoc, j1,
      skip_volumes after s4 d2 b3 (fun w hw => ⟨(hvols w (by simp [hw])).2, hnot w (List.mem_append_right _ hw)⟩) r2, rec_osos osos _ b3 f3 p3]
    have hfin : (if after = [] then s4 else skipParts { s4 with skipVolume := true } (after.flatMap fun w => volumeParts w.2)).fs = s4.fs := by
      split
      · rfl
      · obtain ⟨name, n, r, h1, _⟩ := skipParts_state (after.flatMap fun w => volumeParts w.2) { s4 with skipVolume := true }
        rw [h1]
    refine ⟨_, _, rfl, ?_, ?_⟩
    · dsimp only
      rw [hfin]
      exact j2.file
    · intro q h1 h2
      dsimp only
      rw [hfin, j2.others q h1, g1]
      exact k5 q (fun _ => h2)

/-- C109: any volume of a set with one stored file, a part of it in each volume, is rebuilt alone from that file: `d` is the file,
which the parts of all volumes make up. -/
theorem one_volume_of_file {dig : Nat → Bool} {lower : Str → Str} {fuel : Nat} {fs0 : FS} {app : Str}
    {stored : List (Str × Path)} {before after : List (RarIn × Bytes)} {v : RarIn × Bytes} {compressed oso : Bool} {srr : Bytes}
    (hcreate : createSrr dig lower fuel fs0 app stored ((before ++ v :: after).map (·.1)) compressed oso = .ok srr)
    (hvols : ∀ w ∈ before ++ v :: after, fs0 w.1.exact = some w.2 ∧ GoodVolume w.2)
    {a : RecArgs} {fs1 : FS} (hsrr : fs1 a.srr = some srr)
    (hv : AskedAlone a.part v.1.name) (hnot : ∀ w ∈ before ++ after, NotAsked a.part w.1.name)
    {ext : List Path}
    (hext : a.extractFiles = true → ∀ x ∈ stored, ∃ p ∈ ext, opath x.1 a.extractPaths a.outFolder = .ok p ∧ p ≠ a.srr)
    {out : Path} (hout : opath v.1.name a.extractPaths a.outFolder = .ok out)
    (hfree : fs1 out = none ∧ out ∉ ext ∨ a.ask out = true)
    {name file : Str} {d : Bytes}
    (hparts : ∀ w ∈ before ++ v :: after, ∀ p ∈ volumeParts w.2, p.f.name = name ∧ p.flags &&& 0xE0 ≠ 0xE0 ∧ p.f.method = 0x30 ∧
      p.f.unpackedSize = d.length)
    (hone : ∃ p, volumeParts v.2 = [p])
    (hd : d = (before ++ v :: after).flatMap fun w => (volumeParts w.2).flatMap (·.data))
    (hfile : a.hints.lookup name = some file ∨ a.hints.lookup name = none ∧ osFileNameRar name = .ok file)
    (hsrc : fs1 (a.abspath (posixJoin2 a.inFolder file)) = some d) (hother : a.abspath (posixJoin2 a.inFolder file) ∉ out :: ext) :
    ∃ fs2 reports, reconstruct a fs1 = .ok (fs2, reports, true) ∧ fs2 out = some v.2 ∧
      ∀ q, q ≠ out → q ∉ ext → fs2 q = fs1 q := by
  refine one_volume_partial hcreate hvols hsrr hv hnot hext hout hfree ?_
  obtain ⟨p, hp⟩ := hone
  intro p' hp'
  rw [hp, List.mem_singleton] at hp'
  subst hp'
  obtain ⟨n1, n2, n3, n4⟩ := hparts v (by simp) p' (by rw [hp]; simp)
  have hlen := part_length (hvols v (by simp)).2 p' (by rw [hp]; simp)
  refine ⟨n2, d, ?_, ?_⟩
  · unfold SourceIs
    rw [if_neg n2, n1]
    exact ⟨file, d, hfile, hother, hsrc, Or.inl n4.symm, by rw [if_pos n3]⟩
  · rw [atEnd_first (name := name) _ (by
      intro q hq
      obtain ⟨w, hw, hq⟩ := List.mem_flatMap.1 hq
      exact ⟨(hparts w (by simp [hw]) q hq).1, part_length (hvols w (by simp [hw])).2 q hq⟩)]
    rw [hd, List.flatMap_append, List.flatMap_cons, hp, ← List.flatMap_assoc, List.drop_left]
    simp [← hlen]

/-- C109: the volumes whose names begin with what is asked for are rebuilt, as if they were a set of their own, when the first
file in them is not the last one of the volumes before, which are left out like those behind. -/
theorem subset_partial {dig : Nat → Bool} {lower : Str → Str} {fuel : Nat} {fs0 : FS} {app : Str}
    {stored : List (Str × Path)} {before vols after : List (RarIn × Bytes)} {compressed oso : Bool} {srr : Bytes}
    (hcreate : createSrr dig lower fuel fs0 app stored ((before ++ (vols ++ after)).map (·.1)) compressed oso = .ok srr)
    (hvols : ∀ w ∈ before ++ (vols ++ after), fs0 w.1.exact = some w.2 ∧ GoodVolume w.2) (hne : vols ≠ [])
    {a : RecArgs} {fs1 : FS} (hsrr : fs1 a.srr = some srr)
    (hv : ∀ v ∈ vols, AskedSubset a.part v.1.name) (hnot : ∀ w ∈ before ++ after, NotAsked a.part w.1.name)
    {ext : List Path}
    (hext : a.extractFiles = true → ∀ x ∈ stored, ∃ p ∈ ext, opath x.1 a.extractPaths a.outFolder = .ok p ∧ p ≠ a.srr)
    {out : RarIn × Bytes → Path}
    (hout : ∀ v ∈ vols, opath v.1.name a.extractPaths a.outFolder = .ok (out v) ∧
      (fs1 (out v) = none ∧ out v ∉ ext ∨ a.ask (out v) = true))
    (hdiff : (vols.map out).Nodup)
    (hnew : ∀ p ∈ (before.flatMap fun v => volumeParts v.2).getLast?, ∀ q ∈ (vols.flatMap fun v => volumeParts v.2).head?, p.f.name ≠ q.f.name)
    (hsrc : Packs (SourceIs a fs1 (vols.map out ++ ext)) none (vols.flatMap fun v => volumeParts v.2)) :
    ∃ fs2, reconstruct a fs1 = .ok (fs2, if a.skipCrc = true then [] else wrongParts none (vols.flatMap fun v => volumeParts v.2), true) ∧
      (∀ v ∈ vols, fs2 (out v) = some v.2) ∧ ∀ q, q ∉ vols.map out → q ∉ ext → fs2 q = fs1 q := by
  obtain ⟨files, osos, f1, f2, f3, f4, f5⟩ := create_pieces hcreate hvols
  obtain ⟨s1, b2, b3, e0, p2, p3, k0, k5⟩ := written_start f5 f3 (fun w hw => (hvols w hw).2) (by simp [hne]) hsrr (ext := ext) (fun hx x hxm => by
    have : x.1 ∈ stored.map (·.1) := by rw [← f1]; exact List.mem_map_of_mem hxm
    obtain ⟨y, hy, hyx⟩ := List.mem_map.mp this
    obtain ⟨p, e1, e2, e3⟩ := hext hx y hy
    exact ⟨p, e1, by rw [← hyx]; exact e2, e3⟩)
  rw [e0]
  rw [volumes_append, volumes_append] at p2
  obtain ⟨c1, c2, rfl, q1, q2⟩ := pieces_append p2
  obtain ⟨d1, d2, rfl, r1, r2⟩ := pieces_append q2
  rw [List.append_assoc, skip_volumes before s1 c1 _ (fun w hw => ⟨(hvols w (List.mem_append_left _ hw)).2, hnot w (List.mem_append_left _ hw)⟩) q1]
  obtain ⟨last, hlast⟩ : ∃ last : Option Str, last = (before.flatMap fun v => volumeParts v.2).getLast?.map (·.f.name) := ⟨_, rfl⟩
  obtain ⟨s2, hs2, g1, g2, g3, g4, g5, g6⟩ : ∃ s2, s2 = (if before = [] then s1 else
      skipParts { s1 with skipVolume := true } (before.flatMap fun w => volumeParts w.2)) ∧ s2.fs = s1.fs ∧ s2.rarName = [] ∧
      s2.partialSet = false ∧ s2.srcName = last ∧ s2.running = 0 ∧ s2.reports = [] := by
    refine ⟨_, rfl, ?_⟩
    split
    · rename_i hb
      subst hb
      refine ⟨rfl, ?_, ?_, ?_, ?_, ?_⟩ <;> rw [k0]
      rw [hlast]; rfl
    · obtain ⟨name, n, r, h1, h2, h3, h4⟩ := skipParts_state (before.flatMap fun w => volumeParts w.2) { s1 with skipVolume := true }
      have e1 : s1.srcName = none := by rw [k0]
      have e2 : s1.running = 0 := by rw [k0]
      rw [h1]
      refine ⟨rfl, ?_, ?_, ?_, ?_, ?_⟩
      · show s1.rarName = []
        rw [k0]
      · show s1.partialSet = false
        rw [k0]
      · dsimp only
        rw [h3, hlast]
        split
        · rename_i hb
          rw [hb]; exact e1
        · rfl
      · dsimp only
        rw [h4]
        split
        · exact e2
        · rfl
      · show s1.reports = []
        rw [k0]
  rw [← hs2]
  have hname : ∀ v ∈ vols, v.1.name ≠ [] := by
    intro v hv hc
    have := (hout v hv).1
    rw [hc] at this
    have hbad : opath [] a.extractPaths a.outFolder = .error .valueError := by
      unfold opath osFileNameSrr joinpath
      rfl
    rw [hbad] at this
    simp at this
  obtain ⟨s3, cur, j1, j2, j3, j4, j5, j6⟩ := rec_volumes (fs1 := fs1) (written := vols.map out ++ ext) (srr := srr) (out := out)
    vols s2 none d1 (d2 ++ b3) []
    (by
      intro v hvm
      obtain ⟨o1, o2⟩ := hout v hvm
      obtain ⟨hsk, hsub⟩ := asked_subset (hv v hvm)
      refine ⟨(hvols v (by simp [hvm])).2, List.mem_append_left _ (List.mem_map_of_mem hvm), o1, ?_, ?_, hsk, Or.inr hsub⟩
      · rw [g2]; exact hname v hvm
      · rcases o2 with ⟨o2, o3⟩ | o2
        · left
          rw [g1, k5 _ (fun _ => o3)]
          exact o2
        · exact Or.inr o2)
    hdiff
    (by
      intro q hq
      rw [g1]
      exact k5 q (fun _ hc => hq (List.mem_append_right _ hc)))
    (Or.inr ⟨rfl, by
      intro q hq
      rw [List.append_nil] at hq
      rw [g4, hlast]
      intro hc
      cases hl : (before.flatMap fun v => volumeParts v.2).getLast? with
      | none => rw [hl] at hc; cases hc
      | some p =>
        rw [hl] at hc
        exact hnew p hl q hq (Option.some.inj hc)⟩)
    r1 (by rw [List.append_nil]; exact hsrc)
  rw [List.append_assoc, j1,
    skip_volumes after s3 d2 b3 (fun w hw => ⟨(hvols w (by simp [hw])).2, hnot w (List.mem_append_right _ hw)⟩) r2, rec_osos osos _ b3 f3 p3]
  obtain ⟨s4, hs4, hfin, hrep⟩ : ∃ s4, s4 = (if after = [] then s3 else skipParts { s3 with skipVolume := true } (after.flatMap fun w => volumeParts w.2)) ∧
      s4.fs = s3.fs ∧ s4.reports = s3.reports := by
    refine ⟨_, rfl, ?_⟩
    split
    · exact ⟨rfl, rfl⟩
    · obtain ⟨name, n, r, h1, _⟩ := skipParts_state (after.flatMap fun w => volumeParts w.2) { s3 with skipVolume := true }
      rw [h1]
      exact ⟨rfl, rfl⟩
  rw [← hs4]
  have hreports : s4.reports = if a.skipCrc = true then [] else wrongParts none (vols.flatMap fun v => volumeParts v.2) := by
    rw [hrep]
    unfold Told at j6
    split at j6
    · rename_i hc
      rw [j6, g6, if_pos hc]
    · rename_i hc
      rw [if_neg hc]
      have hstart : wrongParts (last.map fun n => (n, [])) (vols.flatMap fun v => volumeParts v.2) =
          wrongParts none (vols.flatMap fun v => volumeParts v.2) := by
        cases hl : (vols.flatMap fun v => volumeParts v.2) with
        | nil => rfl
        | cons q qs =>
          have : packedSoFar (last.map fun n => (n, [])) q = packedSoFar none q := by
            cases last with
            | none => rfl
            | some n => simp [packedSoFar]
          rw [wrongParts, wrongParts, this]
      rw [(j6 (last.map fun n => (n, [])) (by
        unfold Runs
        cases hl : last with
        | none => rw [hl] at g4; exact g4
        | some n => rw [hl] at g4; exact ⟨g4, by rw [g5, crc32_nil]⟩)).1, g6, hstart]
      rfl
  refine ⟨s4.fs, by rw [← hreports]; rfl, ?_, ?_⟩
  · intro v hv
    rw [hfin]
    exact j3 v hv
  · intro q h1 h2
    rw [hfin, j4 q h1, g1]
    exact k5 q (fun _ => h2)

end Rescene.Props
