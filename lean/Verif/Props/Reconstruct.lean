import Verif.Props.Create
import Verif.Props.Recovery
import Verif.Props.Repack
import Verif.Props.Streams
import Verif.Spec.Reports
/-
C06: creating an SRR and reconstructing the volumes from it.
-/
namespace Rescene.Props
open Rescene Rescene.Spec

theorem open_source {a : RecArgs} {fs fs1 : FS} {written : List Path} {p : FilePart} {content : Bytes}
    (h : SourceIs a fs1 written p content) (hf : ∀ q, q ∉ written → fs q = fs1 q) :
    ∃ src, openSource a fs p.flags p.f = .ok src ∧ Gives src content := by
  unfold SourceIs at h
  unfold openSource
  by_cases hd : p.flags &&& 0xE0 = 0xE0
  · rw [if_pos hd] at h ⊢
    refine ⟨_, rfl, ?_⟩
    simp only [Gives]
    refine ⟨by omega, by omega, ?_⟩
    rw [h]
    congr 1
  · rw [if_neg hd] at h ⊢
    obtain ⟨name, d, h1, h2, h3, h4, h5⟩ := h
    have hl : locateFile a fs p.f = .ok d := by
      unfold locateFile locatePath
      have hn : hintedName a p.f = .ok name := by
        unfold hintedName
        rcases h1 with h1 | ⟨h1, h1'⟩
        · rw [h1]
        · rw [h1]; exact h1'
      have hfs : fs (a.abspath (posixJoin2 a.inFolder name)) = some d := by rw [hf _ h2]; exact h3
      rw [hn]
      simp only [ok_bind, hfs, Option.isNone_some, Bool.false_eq_true, if_false, pure_eq_ok]
      rw [if_neg (by omega)]
    unfold sourceData
    rw [hl, ok_bind]
    by_cases hm : p.f.method = 0x30
    · rw [if_pos hm] at h5
      rw [if_neg (fun hc => hc hm)]
      refine ⟨_, rfl, ?_⟩
      simp [Gives, h5]
    · rw [if_neg hm] at h5
      rw [if_pos hm, h5]
      exact ⟨_, rfl, by simp [Gives]⟩

/-- The file `cur` is open, and this is what is left of it. -/
def HasSource (s : RecState) (cur : Option (Str × Bytes)) : Prop :=
  match cur with
  | none => s.srcName = none
  | some (n, rest) => s.srcName = some n ∧ ∃ src, s.src = some src ∧ Gives src rest

/-- The parts `ps` can be packed: the file `cur` is open, or none is and another one begins. -/
def Ready (s : RecState) (cur : Option (Str × Bytes)) (ps : List FilePart) : Prop :=
  HasSource s cur ∨ cur = none ∧ ∀ p ∈ ps.head?, s.srcName ≠ some p.f.name

theorem ready_same {s s' : RecState} {cur : Option (Str × Bytes)} {ps : List FilePart} (h : Ready s cur ps) (hs : s' = { s with fs := s'.fs }) :
    Ready s' cur ps := by
  rw [hs]
  exact h

/-- While a volume is written: `done` is what it has so far, and no other file is changed. -/
structure Writing (s : RecState) (out : Path) (done : Bytes) (fs : FS) : Prop where
  isOut : s.out = some out
  file : s.fs out = some done
  others : ∀ q, q ≠ out → s.fs q = fs q
  rebuild : s.rebuild = true
  keep : s.skipVolume = false

theorem write_step {s : RecState} {out : Path} {done : Bytes} {fs : FS}
    (h : Writing s out done fs) (b : Bytes) :
    ∃ s', s.write b = .ok s' ∧ Writing s' out (done ++ b) fs ∧ s'.rarName = s.rarName ∧
      s' = { s with fs := s'.fs } := by
  refine ⟨{ s with fs := appendTo s.fs out b }, ?_, ?_, rfl, rfl⟩
  · unfold RecState.write
    rw [h.isOut]
  · refine ⟨h.isOut, ?_, ?_, h.rebuild, h.keep⟩
    · simp [appendTo, FS.set, h.file]
    · intro q hq
      simp only [appendTo, FS.set, if_neg hq]
      exact h.others q hq

/-- The name and the packed data of the file that is packed at the moment: its CRC is kept. -/
def Runs (s : RecState) (last : Option (Str × Bytes)) : Prop :=
  match last with
  | none => s.srcName = none
  | some (n, d) => s.srcName = some n ∧ s.running = crc32 d 0

/-- What comes after a part. -/
def afterPart (last : Option (Str × Bytes)) (p : FilePart) : Option (Str × Bytes) := some (p.f.name, packedSoFar last p)

/-- Between `s` and `s'` exactly the wrong checksums of these parts are reported, or none when checks are switched off. -/
def Told (a : RecArgs) (s s' : RecState) (ps : List FilePart) : Prop :=
  if a.skipCrc = true then s'.reports = s.reports
  else ∀ last, Runs s last → s'.reports = s.reports ++ wrongParts last ps ∧ Runs s' (ps.foldl afterPart last)

theorem told_same {a : RecArgs} {s s' : RecState} (h1 : s'.reports = s.reports) (h2 : s'.running = s.running) (h3 : s'.srcName = s.srcName) :
    Told a s s' [] := by
  unfold Told
  split
  · exact h1
  · intro last hl
    refine ⟨by simpa [wrongParts] using h1, ?_⟩
    simp only [List.foldl_nil]
    unfold Runs at hl ⊢
    cases last with
    | none => exact h3.trans hl
    | some c => exact ⟨h3.trans hl.1, h2.trans hl.2⟩

theorem told_write {a : RecArgs} {s s' : RecState} (h : s' = { s with fs := s'.fs }) : Told a s s' [] := by
  rw [h]
  exact told_same rfl rfl rfl

theorem wrong_append (ps qs : List FilePart) : ∀ last, wrongParts last (ps ++ qs) = wrongParts last ps ++ wrongParts (ps.foldl afterPart last) qs := by
  induction ps with
  | nil => intro last; rfl
  | cons p ps ih =>
    intro last
    rw [List.cons_append, wrongParts, wrongParts, ih, List.append_assoc]
    rfl

theorem told_trans {a : RecArgs} {s s' s'' : RecState} {ps qs : List FilePart} (h1 : Told a s s' ps) (h2 : Told a s' s'' qs) :
    Told a s s'' (ps ++ qs) := by
  unfold Told at *
  split at h1
  · rename_i hc
    rw [if_pos hc] at h2 ⊢
    exact h2.trans h1
  · rename_i hc
    rw [if_neg hc] at h2 ⊢
    intro last hl
    obtain ⟨g1, g2⟩ := h1 last hl
    obtain ⟨g3, g4⟩ := h2 _ g2
    exact ⟨by rw [g3, g1, wrong_append, List.append_assoc], by rw [List.foldl_append]; exact g4⟩

theorem mismatch_wrong (p : FilePart) (pre : Bytes) : mismatch p.flags p.f p.data (crc32 pre 0) = wrongPart p (pre ++ p.data) := by
  unfold mismatch wrongPart
  rw [crc32_append]
  split
  · rfl
  · by_cases hm : p.f.method = 0x30 <;> by_cases hc : p.f.fileCrc = (crc32 p.data (crc32 pre 0)).toNat <;> simp [hm, hc]

theorem rec_file {a : RecArgs} {s : RecState} {out : Path} {done : Bytes} {cur : Option (Str × Bytes)} {fs fs1 : FS}
    {written : List Path} {b : Block} {f : FileFields} {data : Bytes} {ps : List FilePart}
    (h : Writing s out done fs) (hready : Ready s cur (⟨b.flags, f, data⟩ :: ps)) (hpart : ¬ (a.part ≠ [] ∧ s.partialSet = false))
    (hf : ∀ q, q ∉ written → fs q = fs1 q) (ho : out ∈ written)
    (hl : data.length = f.packedSize)
    (hp : Packs (SourceIs a fs1 written) cur (⟨b.flags, f, data⟩ :: ps)) :
    ∃ s' cur', recFile a s b f = .ok s' ∧ Writing s' out (done ++ (b.raw ++ data)) fs ∧ Ready s' cur' ps ∧
      (s'.rarName = s.rarName ∧ s'.partialSet = s.partialSet) ∧ Packs (SourceIs a fs1 written) cur' ps ∧ Told a s s' [⟨b.flags, f, data⟩] := by
  obtain ⟨s1, w1, w2, w3, w4⟩ := write_step h b.raw
  have w5 : s1.srcName = s.srcName ∧ s1.running = s.running ∧ s1.reports = s.reports := by rw [w4]; exact ⟨rfl, rfl, rfl⟩
  have w6 : s1.partialSet = s.partialSet ∧ s1.src = s.src := by rw [w4]; exact ⟨rfl, rfl⟩
  unfold recFile
  rw [if_neg (by rw [h.keep]; simp), w1, ok_bind]
  -- the source
  have hopen : ∃ s2 rest src, recOpen a s1 b.flags f = .ok s2 ∧ s2.src = some src ∧ Gives src (data ++ rest) ∧
      s2.srcName = some f.name ∧ s2.fs = s1.fs ∧ s2.out = s1.out ∧ s2.rebuild = s1.rebuild ∧
      s2.skipVolume = s1.skipVolume ∧ (s2.rarName = s1.rarName ∧ s2.partialSet = s1.partialSet) ∧
      Packs (SourceIs a fs1 written) (some (f.name, rest)) ps ∧ s2.reports = s1.reports ∧
      ∀ last, Runs s last → ∃ pre, packedSoFar last ⟨b.flags, f, data⟩ = pre ++ data ∧ s2.running = crc32 pre 0 := by
    have hno : ¬ (a.part ≠ [] ∧ s1.partialSet = false) := by rw [w6.1]; exact hpart
    cases hp with
    | @continues _ _ rest hps =>
      obtain ⟨g1, src, g2, g3⟩ : s1.srcName = some f.name ∧ ∃ src, s1.src = some src ∧ Gives src (data ++ rest) := by
        rw [w5.1, w6.2]
        rcases hready with hr | ⟨hr, _⟩
        · exact hr
        · cases hr
      refine ⟨s1, rest, src, ?_, g2, g3, g1, rfl, rfl, rfl, rfl, ⟨rfl, rfl⟩, hps, rfl, ?_⟩
      · unfold recOpen
        rw [if_neg (by
          rintro (hc | hc)
          · exact hc g1
          · exact hno hc)]
      · intro last hl
        rw [w5.1] at g1
        unfold Runs at hl
        cases last with
        | none => rw [hl] at g1; simp at g1
        | some c =>
          obtain ⟨n, d⟩ := c
          obtain ⟨l1, l2⟩ := hl
          rw [l1] at g1
          exact ⟨d, by simp [packedSoFar, Option.some.inj g1], by rw [w5.2.1, l2]⟩
    | @starts _ _ _ rest hn hs hps =>
      have hfs : ∀ q, q ∉ written → s1.fs q = fs1 q := by
        intro q hq
        rw [w2.others q (fun hc => hq (hc ▸ ho))]
        exact hf q hq
      obtain ⟨src, o1, o2⟩ := open_source hs hfs
      have hne : s1.srcName ≠ some f.name := by
        rw [w5.1]
        rcases hready with this | ⟨_, this⟩
        · cases cur with
          | none =>
            rw [show s.srcName = none from this]; simp
          | some c =>
            obtain ⟨n, r⟩ := c
            obtain ⟨g1, _⟩ := this
            rw [g1]
            intro hc
            exact hn n r rfl (Option.some.inj hc)
        · exact this ⟨b.flags, f, data⟩ (by simp)
      refine ⟨{ s1 with srcName := some f.name, running := 0, src := some src }, rest, src, ?_, rfl, o2, rfl, rfl, rfl, rfl, rfl, ⟨rfl, rfl⟩, hps, rfl, ?_⟩
      · unfold recOpen
        rw [if_pos (Or.inl hne)]
        show (openSource a s1.fs b.flags f >>= _) = _
        rw [o1]
        rfl
      · intro last hl
        refine ⟨[], ?_, by rw [crc32_nil]⟩
        rw [w5.1] at hne
        unfold Runs at hl
        cases last with
        | none => rfl
        | some c =>
          obtain ⟨n, d⟩ := c
          obtain ⟨l1, l2⟩ := hl
          rw [l1] at hne
          have : n ≠ f.name := fun hc => hne (by rw [hc])
          simp [packedSoFar, this]
  obtain ⟨s2, rest, src, h1, h2, h3, h4, h5, h6, h7, h8, h9, h10, h11, h12⟩ := hopen
  obtain ⟨src', r1, r2, r3⟩ := repack_exact b.flags f src (data ++ rest) s2.running a.skipCrc h3
  have hfill : filled (data ++ rest) f.packedSize = data := by
    unfold filled
    rw [← hl, List.take_left]
    simp
  have hdrop : (data ++ rest).drop f.packedSize = rest := by rw [← hl, List.drop_left]
  have htk : (data ++ rest).take f.packedSize = data := by rw [← hl, List.take_left]
  rw [hfill, htk] at r1
  rw [hdrop] at r2
  rw [h1, ok_bind]
  unfold recData
  rw [h2]
  have hno : ¬ (a.part ≠ [] ∧ s2.partialSet = false) := by rw [h9.2, w6.1]; exact hpart
  simp only [if_neg hno, ok_bind, r1]
  have hw : s2.write data = .ok { s2 with fs := appendTo s2.fs out data } := by
    unfold RecState.write
    rw [h6, w2.isOut]
  rw [hw, ok_bind]
  refine ⟨_, some (f.name, rest), rfl, ?_, Or.inl ⟨h4, src', rfl, r2⟩, by simp only [h9, w3, w6, and_self], h10, ?_⟩
  rotate_left
  · unfold Told
    cases hsk : a.skipCrc with
    | true =>
      simp only [if_true, List.append_nil]
      exact h11.trans w5.2.2
    | false =>
      simp only [Bool.false_eq_true, if_false]
      intro last hr
      obtain ⟨pre, g1, g2⟩ := h12 last hr
      refine ⟨?_, ?_⟩
      · rw [h11, w5.2.2, g2, wrongParts, wrongParts, List.append_nil, g1]
        exact congrArg _ (mismatch_wrong ⟨b.flags, f, data⟩ pre)
      · simp only [List.foldl_cons, List.foldl_nil, afterPart, Runs]
        exact ⟨h4, by rw [g1, g2, crc32_append]⟩
  refine ⟨?_, ?_, ?_, ?_, ?_⟩
  · simp only [h6, w2.isOut]
  · simp [appendTo, FS.set, h5, w2.file]
  · intro q hq
    simp only [appendTo, FS.set, if_neg hq, h5]
    exact w2.others q hq
  · simp only [h7, w2.rebuild]
  · simp only [h8, w2.keep]

theorem take_slice {data : Bytes} {a e : Nat} (h : a ≤ e) : data.take e = data.take a ++ slice data a e := by
  unfold slice
  have : data.take a = (data.take e).take a := by rw [List.take_take, Nat.min_eq_left h]
  rw [this, List.take_append_drop]

theorem slice_slice {data : Bytes} {a b e : Nat} (h1 : a ≤ b) (h2 : b ≤ e) :
    slice data a e = slice data a b ++ slice data b e := by
  have e1 := take_slice (data := data) (a := a) (e := e) (by omega)
  have e2 := take_slice (data := data) (a := a) (e := b) h1
  have e3 := take_slice (data := data) (a := b) (e := e) h2
  rw [e2, List.append_assoc, e1] at e3
  exact List.append_cancel_left e3

/-- The piece for a block of a volume. -/
def blockPiece (b : Block) : Piece := if b.btype = 0x6C then .padding (b.raw.drop 11) else .rar b

theorem kind_packed_type {b : Block} {f : FileFields} (hc : Complete b) (hk : b.kind = .packed f) : b.btype = 0x74 := by
  by_cases h : b.hsize = 7 ∧ b.btype ≠ 0x69
  · have := hc.parsed
    rw [if_pos h] at this
    rw [this] at hk
    simp [plainBlock] at hk
  · obtain ⟨add, hk'⟩ := complete_kind hc h
    rw [hk] at hk'
    exact (mkKind_packed hk').1

theorem skipped_of_kept {b : Block} (h1 : b.btype ≠ 0x6A) (h2 : b.btype ≠ 0x74) (h3 : isRecovery b = false) :
    skippedLen .rar none b = 0 := by
  unfold skippedLen
  simp [h1, h2, h3]

/-- A block of a volume: a file, or anything else, which is written. -/
theorem rec_tile_cases {a : RecArgs} {s : RecState} {out : Path} {fs : FS}
    {data srr : Bytes} {b b' : Block} {e a0 : Nat} {t : List (Block × Nat)}
    (hv : VolTiles data ((b, e) :: t) a0) (h72 : a0 = 0 → isRecovery b = false) (hr : Restorable data b e)
    (hb' : PieceIs srr (blockPiece b) b')
    (h : Writing s out (data.take a0) fs) :
    (∃ f part, fileParts data [(b, e)] = [⟨b'.flags, f, part⟩] ∧ part.length = f.packedSize ∧
      recBlock a s b' = (do let s ← recFile a s b' f; return (s, true)) ∧ data.take e = data.take a0 ++ (b'.raw ++ part)) ∨
    (fileParts data [(b, e)] = [] ∧ ∃ s', recBlock a s b' = .ok (s', true) ∧ Writing s' out (data.take e) fs ∧ s' = { s with fs := s'.fs }) := by
  obtain ⟨h1, h2, h3, h4, h5⟩ := hv
  rcases h4 with ⟨t1, t2, t3, t4, t5, t6⟩ | ⟨f1, f2, f3, f4, f5⟩
  · -- the bytes behind the archive end
    have hpc : blockPiece b = .padding (b.raw.drop 11) := if_pos t2
    rw [hpc] at hb'
    obtain ⟨p1, p2, _⟩ := hb'
    have hfp : fileParts data [(b, e)] = [] := by
      unfold fileParts
      rw [List.flatMap_cons]
      dsimp only
      rw [t1.1]
      rfl
    obtain ⟨s', w1, w2, w3, w4⟩ := write_step h (b'.raw.drop b'.hsize)
    refine Or.inr ⟨hfp, s', ?_, ?_, w4⟩
    · unfold recBlock recOther isRecBlock
      rw [p1]
      simp [h.keep, w1]
    · rw [p2, t1.2.2.1, h1] at w2
      rw [List.take_append_drop] at w2
      rw [t5, List.take_length]
      exact w2
  · rcases hr with hr | ⟨r1, r2, r3, r4, r5⟩
    · exact absurd hr f1
    have hc := f5 r2
    have hpc : blockPiece b = .rar b := if_neg (by omega)
    rw [hpc] at hb'
    obtain ⟨pos, hb'⟩ := hb'
    have ebt : b'.btype = b.btype := by rw [hb']; rfl
    have ebk : b'.kind = b.kind := by rw [hb']; rfl
    have ebr : b'.raw = b.raw := by rw [hb']; rfl
    have ebf : b'.flags = b.flags := by rw [hb']; rfl
    have ebh : b'.hsize = b.hsize := by rw [hb']; rfl
    have htake : data.take e = data.take a0 ++ (b.raw ++ slice data (b.pos + b.raw.length) e) := by
      rw [take_slice (data := data) (a := a0) (e := e) (by omega),
        slice_slice (a := a0) (b := a0 + b.raw.length) (by omega) f3, ← f2, h1]
    have hrb : recBlock a s b' = (do let s ← recOther a s b'; return (s, true)) := by
      unfold recBlock
      rw [ebt, if_neg (by omega), if_neg (by omega), if_neg (by omega)]
    rw [hrb]
    by_cases h74 : b.btype = 0x74
    · obtain ⟨f, hk, ha⟩ := complete_packed hc h74 (r3 (Or.inl h74))
      have hsk : skippedLen .rar none b = f.packedSize := by
        unfold skippedLen
        rw [if_neg (r3 (Or.inl h74)), if_neg (by omega), if_pos h74, if_pos rfl, ha]
      have hfp : fileParts data [(b, e)] = [⟨b.flags, f, slice data (b.pos + b.raw.length) e⟩] := by
        unfold fileParts
        rw [List.flatMap_cons]
        dsimp only
        rw [hk]
        rfl
      have hlen : (slice data (b.pos + b.raw.length) e).length = f.packedSize := by
        rw [slice, List.length_drop, List.length_take, h1]; omega
      refine Or.inl ⟨f, slice data (b.pos + b.raw.length) e, by rw [hfp, ebf], hlen, ?_, by rw [ebr]; exact htake⟩
      unfold recOther isRecBlock
      rw [ebt, if_neg (by omega)]
      simp only [ok_bind, h74]
      rw [if_neg (by simp), if_pos trivial, ebk, hk]
    · have hfp : fileParts data [(b, e)] = [] := by
        unfold fileParts
        rw [List.flatMap_cons]
        dsimp only
        split
        · rename_i f hk
          exact absurd (kind_packed_type hc hk) h74
        · rfl
      refine Or.inr ⟨hfp, ?_⟩
      by_cases hrec : isRecovery b = true
      · -- a recovery record
        have hs := r4.mp hrec
        obtain ⟨x, hx⟩ := Option.isSome_iff_exists.mp hs
        obtain ⟨rs, ds⟩ := x
        have hro := r5 rs ds hx
        have hso : recSectorsOf b' = .ok (rs, ds) := by
          unfold recSectorsOf
          rw [ebk]
          unfold sectorsOf at hx
          split at hx
          · rename_i f rr hk
            rw [hx] at hk
            rw [hk]
          · rename_i hk
            simp only [Option.some.injEq, Prod.mk.injEq] at hx
            rw [hk, hx.1, hx.2]
          · simp at hx
        have hir : isRecBlock b' = .ok true := by
          unfold isRecBlock
          rw [ebt, ebk]
          by_cases h7a : b.btype = 0x7A
          · rw [if_pos h7a]
            unfold sectorsOf at hx
            obtain ⟨f, rr, hk⟩ := complete_newSub hc h7a (r3 (Or.inr (Or.inr h7a)))
            rw [hk] at hx ⊢
            dsimp only at hx
            rw [hx]
            rfl
          · rw [if_neg h7a]
            have : b.btype = 0x78 := by
              unfold isRecovery at hrec
              simp [h7a] at hrec
              exact hrec
            rw [this]
            rfl
        unfold recOther
        rw [hir, ok_bind, if_pos ⟨rfl, h.keep⟩]
        unfold recRecovery
        rw [hso, ok_bind]
        dsimp only
        by_cases hz : rs = 0
        · rw [if_neg (by omega)]
          rw [if_pos hz] at hro
          obtain ⟨s', w1, w2, w3, w4⟩ := write_step h b'.raw
          refine ⟨s', by rw [w1]; rfl, ?_, w4⟩
          rw [ebr] at w2
          rw [htake, hro]
          have : slice data (b.pos + b.raw.length) (b.pos + b.raw.length) = [] := by
            rw [slice, List.drop_eq_nil_iff, List.length_take]; omega
          rw [this, List.append_nil]
          exact w2
        · rw [if_pos ⟨by omega, h.rebuild⟩]
          rw [if_neg hz] at hro
          obtain ⟨q1, q2⟩ := hro
          rw [h.isOut]
          dsimp only
          have ha0 : a0 ≠ 0 := by
            intro hc0
            rw [h72 hc0] at hrec
            simp at hrec
          have hne : data.take a0 ≠ [] := by
            intro hc0
            have := congrArg List.length hc0
            rw [List.length_take, List.length_nil] at this
            omega
          rw [h.file, Option.getD_some, recovery_record, if_neg hne]
          rw [h1] at q1 q2
          rw [if_neg (by omega), ok_bind]
          obtain ⟨s', w1, w2, w3, w4⟩ := write_step h (b'.raw ++ recoveryData (data.take a0) rs ds)
          refine ⟨s', by rw [w1]; rfl, ?_, by rw [h.isOut] at w4; exact w4⟩
          rw [htake, h1, q2, ← ebr]
          exact w2
      · -- any other block
        have hir : isRecBlock b' = .ok false := by
          unfold isRecBlock
          rw [ebt, ebk]
          by_cases h7a : b.btype = 0x7A
          · rw [if_pos h7a]
            obtain ⟨f, rr, hk⟩ := complete_newSub hc h7a (r3 (Or.inr (Or.inr h7a)))
            rw [hk]
            dsimp only
            have : (sectorsOf b).isSome = false := by
              cases hq : (sectorsOf b).isSome with
              | false => rfl
              | true => exact absurd (r4.mpr hq) hrec
            unfold sectorsOf at this
            rw [hk] at this
            rw [this]
          · rw [if_neg h7a]
            have : b.btype ≠ 0x78 := by
              intro hc8
              apply hrec
              unfold isRecovery
              rw [hc8]
              simp
            simp [this]
        obtain ⟨s', w1, w2, w3, w4⟩ := write_step h b'.raw
        refine ⟨s', ?_, ?_, w4⟩
        · unfold recOther
          rw [hir, ok_bind, if_neg (by simp), ebt, if_neg h74, if_pos (by rw [ebh]; exact r1), if_pos h.keep, w1]
          rfl
        · have hsk := skipped_of_kept (by omega) h74 (by simpa using hrec)
          rw [hsk, Nat.add_zero] at f4
          rw [htake, h1, f4]
          have : slice data (a0 + b.raw.length) (a0 + b.raw.length) = [] := by
            rw [slice, List.drop_eq_nil_iff, List.length_take]; omega
          rw [this, List.append_nil, ← ebr]
          exact w2

theorem rec_tile {a : RecArgs} {s : RecState} {out : Path} {cur : Option (Str × Bytes)} {fs fs1 : FS}
    {written : List Path} {data srr : Bytes} {b b' : Block} {e a0 : Nat} {t : List (Block × Nat)} {ps : List FilePart}
    (hv : VolTiles data ((b, e) :: t) a0) (h72 : a0 = 0 → isRecovery b = false) (hr : Restorable data b e)
    (hb' : PieceIs srr (blockPiece b) b')
    (h : Writing s out (data.take a0) fs) (hready : Ready s cur (fileParts data [(b, e)] ++ ps))
    (hpart : ¬ (a.part ≠ [] ∧ s.partialSet = false)) (hf : ∀ q, q ∉ written → fs q = fs1 q)
    (ho : out ∈ written)
    (hp : Packs (SourceIs a fs1 written) cur (fileParts data [(b, e)] ++ ps)) :
    ∃ s' cur', recBlock a s b' = .ok (s', true) ∧ Writing s' out (data.take e) fs ∧ Ready s' cur' ps ∧
      (s'.rarName = s.rarName ∧ s'.partialSet = s.partialSet) ∧ Packs (SourceIs a fs1 written) cur' ps ∧
      Told a s s' (fileParts data [(b, e)]) := by
  rcases rec_tile_cases (a := a) hv h72 hr hb' h with ⟨f, part, h1, h2, h3, h4⟩ | ⟨h1, s', h2, h3, h4⟩
  · rw [h1, List.singleton_append] at hp hready
    obtain ⟨s', cur', g1, g2, g3, g4, g5, g6⟩ := rec_file (b := b') h hready hpart hf ho h2 hp
    refine ⟨s', cur', by rw [h3, g1]; rfl, by rw [h4]; exact g2, g3, g4, g5, by rw [h1]; exact g6⟩
  · rw [h1, List.nil_append] at hp hready
    exact ⟨s', cur, h2, h3, ready_same hready h4, by rw [h4]; exact ⟨rfl, rfl⟩, hp, by rw [h1]; exact told_write h4⟩

theorem rec_tiles {a : RecArgs} {out : Path} {fs fs1 : FS} {written : List Path} {data srr : Bytes}
    (hf : ∀ q, q ∉ written → fs q = fs1 q) (ho : out ∈ written) (tr : List (Block × Nat)) :
    ∀ (s : RecState) (cur : Option (Str × Bytes)) (a0 : Nat) (bs more : List Block) (ps : List FilePart),
      VolTiles data tr a0 → (a0 = 0 → ∀ x ∈ tr.head?, isRecovery x.1 = false) → (∀ x ∈ tr, Restorable data x.1 x.2) →
      PiecesAre srr (tr.map fun x => blockPiece x.1) bs →
      Writing s out (data.take a0) fs → Ready s cur (fileParts data tr ++ ps) → ¬ (a.part ≠ [] ∧ s.partialSet = false) →
      Packs (SourceIs a fs1 written) cur (fileParts data tr ++ ps) →
      ∃ s' cur', recLoop a s (bs ++ more) = recLoop a s' more ∧ Writing s' out data fs ∧ Ready s' cur' ps ∧
        (s'.rarName = s.rarName ∧ s'.partialSet = s.partialSet) ∧ Packs (SourceIs a fs1 written) cur' ps ∧ Told a s s' (fileParts data tr) := by
  induction tr with
  | nil =>
    intro s cur a0 bs more ps hv _ _ hb hw hready hpart hp
    cases bs with
    | nil =>
      refine ⟨s, cur, rfl, ?_, hready, ⟨rfl, rfl⟩, hp, told_same rfl rfl rfl⟩
      simp only [VolTiles] at hv
      rw [hv, List.take_length] at hw
      exact hw
    | cons _ _ => exact hb.elim
  | cons x t ih =>
    intro s cur a0 bs more ps hv h72 hr hb hw hready hpart hp
    obtain ⟨b, e⟩ := x
    cases bs with
    | nil => exact hb.elim
    | cons b' bs =>
      obtain ⟨hb1, hb2⟩ := hb
      have hfp : fileParts data ((b, e) :: t) = fileParts data [(b, e)] ++ fileParts data t := by
        simp [fileParts, List.flatMap_cons]
      rw [hfp, List.append_assoc] at hp hready
      obtain ⟨s1, cur1, g1, g2, gr, g3, g4, g5⟩ := rec_tile hv (fun hc => h72 hc (b, e) rfl) (hr (b, e) (by simp)) hb1 hw hready hpart hf ho hp
      have hpos : 0 < e := by have := hv.2.1; omega
      obtain ⟨s2, cur2, k1, k2, kr, k3, k4, k5⟩ := ih s1 cur1 e bs more ps hv.2.2.2.2 (fun hc => by omega)
        (fun x hx => hr x (List.mem_cons_of_mem _ hx)) hb2 g2 gr (by rw [g3.2]; exact hpart) g4
      refine ⟨s2, cur2, ?_, k2, kr, ⟨k3.1.trans g3.1, k3.2.trans g3.2⟩, k4, by rw [hfp]; exact told_trans g5 k5⟩
      rw [List.cons_append, recLoop, g1, ok_bind]
      exact k1

theorem first_byte {data : Bytes} {c : UInt8} {n : Nat} (h : data[2]? = some c) (hc : c.toNat = n) (hl : 2 + 1 ≤ data.length) :
    ofLe (slice data 2 (2 + 1)) = n := by
  match data, h, hl with
  | x0 :: x1 :: x2 :: rest, h, hl =>
    simp only [List.getElem?_cons_succ, List.getElem?_cons_zero, Option.some.injEq] at h
    subst h
    simpa [slice, ofLe] using hc

/-- The first block of a volume. -/
theorem first_block {data : Bytes} {tr : List (Block × Nat)} (hm : openReader data = .ok .rar) (hv : VolTiles data tr 0)
    (hr : ∀ x ∈ tr, Restorable data x.1 x.2) : ∀ x ∈ tr.head?, isRecovery x.1 = false := by
  intro x hx
  cases tr with
  | nil => simp at hx
  | cons y t =>
    simp only [List.head?_cons, Option.mem_def, Option.some.injEq] at hx
    subst hx
    obtain ⟨b, e⟩ := y
    obtain ⟨h1, h2, h3, h4, h5⟩ := hv
    have hd : ∃ c, data[2]? = some c ∧ c.toNat = 0x72 := by
      unfold openReader at hm
      split at hm
      · simp at hm
      · split at hm
        · simp at hm
        · split at hm
          · simp at hm
          · rename_i c hc
            split at hm
            · exact ⟨c, hc, by assumption⟩
            · split at hm <;> simp at hm
    rcases h4 with ⟨t1, t2, _⟩ | ⟨f1, f2, f3, f4, f5⟩
    · exact isRecovery_of_ne (by show b.btype ≠ _; omega) (by show b.btype ≠ _; omega)
    · rcases hr (b, e) (by simp) with hr | hr
      · exact absurd hr f1
      · have hc := f5 hr.2.1
        have := (complete_fields hc).1
        have hl := complete_len hc
        obtain ⟨c, c1, c2⟩ := hd
        rw [f2, Nat.zero_add] at this
        have e0 : slice data 0 b.raw.length = data.take b.raw.length := by simp [slice]
        rw [e0, unpackAt_take (by omega) (by omega)] at this
        rw [unpackAt_ok_iff] at this
        obtain ⟨u1, u2⟩ := this
        have h72 : b.btype = 0x72 := by
          rw [u2]
          exact first_byte c1 c2 u1
        exact isRecovery_of_ne (by show b.btype ≠ _; omega) (by show b.btype ≠ _; omega)

theorem pieces_append {srr : Bytes} {ps qs : List Piece} : ∀ {bs : List Block}, PiecesAre srr (ps ++ qs) bs →
    ∃ b1 b2, bs = b1 ++ b2 ∧ PiecesAre srr ps b1 ∧ PiecesAre srr qs b2 := by
  induction ps with
  | nil => intro bs h; exact ⟨[], bs, rfl, trivial, h⟩
  | cons p ps ih =>
    intro bs h
    cases bs with
    | nil => exact h.elim
    | cons b bs =>
      obtain ⟨h1, h2⟩ := h
      obtain ⟨b1, b2, e, g1, g2⟩ := ih h2
      exact ⟨b :: b1, b2, by rw [e]; rfl, ⟨h1, g1⟩, g2⟩

theorem rec_volumes {a : RecArgs} {fs1 : FS} {written : List Path} {srr : Bytes} {out : RarIn × Bytes → Path}
    (vols : List (RarIn × Bytes)) :
    ∀ (s : RecState) (cur : Option (Str × Bytes)) (bs more : List Block) (ps : List FilePart),
      (∀ v ∈ vols, GoodVolume v.2 ∧ out v ∈ written ∧ opath v.1.name a.extractPaths a.outFolder = .ok (out v) ∧
        v.1.name ≠ s.rarName ∧ (s.fs (out v) = none ∨ a.ask (out v) = true) ∧
        skipped a v.1.name = false ∧ (a.part = [] ∨ inSubset a v.1.name = true)) →
      (vols.map out).Nodup →
      (∀ q, q ∉ written → s.fs q = fs1 q) → Ready s cur ((vols.flatMap fun v => volumeParts v.2) ++ ps) →
      PiecesAre srr (volumesPieces vols) bs →
      Packs (SourceIs a fs1 written) cur ((vols.flatMap fun v => volumeParts v.2) ++ ps) →
      ∃ s' cur', recLoop a s (bs ++ more) = recLoop a s' more ∧ Ready s' cur' ps ∧
        (∀ v ∈ vols, s'.fs (out v) = some v.2) ∧ (∀ q, q ∉ vols.map out → s'.fs q = s.fs q) ∧
        Packs (SourceIs a fs1 written) cur' ps ∧ Told a s s' (vols.flatMap fun v => volumeParts v.2) := by
  induction vols with
  | nil =>
    intro s cur bs more ps _ _ _ hs hb hp
    cases bs with
    | nil => exact ⟨s, cur, rfl, hs, by simp, fun _ _ => rfl, hp, told_same rfl rfl rfl⟩
    | cons _ _ => exact hb.elim
  | cons v t ih =>
    intro s cur bs more ps hv hnd hf hs hb hp
    obtain ⟨⟨hm, tr, htr, hres⟩, v2, v3, v4, v5, v6, v7⟩ := hv v (by simp)
    unfold volumesPieces at hb
    rw [List.flatMap_cons, List.cons_append] at hb
    cases bs with
    | nil => exact hb.elim
    | cons b0 bs =>
      obtain ⟨⟨p1, p2, p3⟩, hb⟩ := hb
      obtain ⟨b1, b2, rfl, hb1, hb2⟩ := pieces_append hb
      -- the volume is opened
      obtain ⟨s1, hs1, hw1, hn1, ht1, hss, hpart1⟩ : ∃ s1, recBlock a s b0 = .ok (s1, true) ∧ Writing s1 (out v) [] s.fs ∧ s1.rarName = v.1.name ∧
          Told a s s1 [] ∧ (s1.srcName = s.srcName ∧ s1.src = s.src) ∧ ¬ (a.part ≠ [] ∧ s1.partialSet = false) := by
        unfold recBlock
        rw [p1, if_neg (by decide), if_neg (by decide), if_pos rfl, p3]
        dsimp only
        unfold recVolume
        rw [v6]
        dsimp only
        rw [if_pos ⟨fun hc => v4 hc.symm, rfl⟩, v3, ok_bind]
        have hcond : ((s.fs (out v)).isNone || a.ask (out v)) = true := by
          rcases v5 with h | h <;> simp [h]
        rw [if_pos hcond]
        refine ⟨_, rfl, ⟨rfl, by simp [FS.set], ?_, ?_, rfl⟩, rfl, told_same rfl rfl rfl, ⟨rfl, rfl⟩, ?_⟩
        · intro q hq; simp [FS.set, hq]
        · show hasFlag b0.flags 1 = true
          rw [p2]; decide
        · rcases v7 with h | h
          · exact fun hc => hc.1 h
          · intro hc
            have := hc.2
            simp [h] at this
      have hvt := volTiles_of_read hm htr
      have hvp : volumeParts v.2 = fileParts v.2 tr := by unfold volumeParts; rw [htr]
      have hpc : volumePieces v.2 = tr.map fun x => blockPiece x.1 := by unfold volumePieces; rw [htr]; rfl
      rw [hpc] at hb1
      rw [List.flatMap_cons, hvp, List.append_assoc] at hp hs
      have hs1' : Ready s1 cur (fileParts v.2 tr ++ ((t.flatMap fun v => volumeParts v.2) ++ ps)) := by
        unfold Ready HasSource at hs ⊢
        rw [hss.1, hss.2]
        exact hs
      obtain ⟨s2, cur2, k1, k2, kr, k3, k4, k5⟩ := rec_tiles (fs := s.fs) hf v2 tr s1 cur 0 b1 (b2 ++ more) _ hvt
        (fun _ => first_block hm hvt hres) hres hb1 (by simpa using hw1) hs1' hpart1 hp
      -- the other volumes
      have hnd' : out v ∉ t.map out ∧ (t.map out).Nodup := by simpa using hnd
      have hne : ∀ w ∈ t, out w ≠ out v := fun w hw hc => hnd'.1 (hc ▸ List.mem_map_of_mem hw)
      obtain ⟨s3, cur3, j1, j2, j3, j4, j5, j6⟩ := ih s2 cur2 b2 more ps
        (by
          intro w hw
          obtain ⟨w1, w2, w3, w4, w5, w6, w7⟩ := hv w (List.mem_cons_of_mem _ hw)
          refine ⟨w1, w2, w3, ?_, ?_, w6, w7⟩
          · rw [k3.1, hn1]
            intro hc
            rw [hc, v3] at w3
            exact hne w hw (Except.ok.inj w3).symm
          · rw [k2.others _ (hne w hw)]; exact w5)
        hnd'.2
        (by
          intro q hq
          rw [k2.others q (fun hc => hq (hc ▸ v2))]
          exact hf q hq)
        kr hb2 k4
      refine ⟨s3, cur3, ?_, j2, ?_, ?_, j5, by rw [List.flatMap_cons, hvp]; exact told_trans (told_trans ht1 k5) j6⟩
      · rw [List.cons_append, recLoop, hs1, ok_bind, List.append_assoc]
        exact k1.trans j1
      · intro w hw
        rcases List.mem_cons.mp hw with rfl | hw
        · rw [j4 _ hnd'.1]; exact k2.file
        · exact j3 w hw
      · intro q hq
        simp only [List.map_cons, List.mem_cons, not_or] at hq
        rw [j4 q hq.2]
        exact k2.others q hq.1

/-- The blocks of OSO hashes do nothing. -/
theorem rec_osos {a : RecArgs} {srr : Bytes} (ps : List Piece) : ∀ (s : RecState) (bs : List Block),
    (∀ p ∈ ps, ∃ x h n, p = Piece.oso x h n) → PiecesAre srr ps bs → recLoop a s bs = .ok (s, true) := by
  induction ps with
  | nil =>
    intro s bs _ hb
    cases bs with
    | nil => rfl
    | cons _ _ => exact hb.elim
  | cons p ps ih =>
    intro s bs hp hb
    cases bs with
    | nil => exact hb.elim
    | cons b bs =>
      obtain ⟨x, h, n, rfl⟩ := hp p (by simp)
      obtain ⟨b1, b2⟩ := hb
      have b1 : b.btype = 0x6B := b1.1
      have : recBlock a s b = .ok (s, true) := by
        unfold recBlock recOther isRecBlock
        rw [b1]
        simp
      rw [recLoop, this, ok_bind]
      exact ih s bs (fun p hp' => hp p (List.mem_cons_of_mem _ hp')) b2

/-- The stored files are extracted. -/
theorem rec_stored {a : RecArgs} {srr : Bytes} (files : List (Str × Bytes)) : ∀ (s : RecState) (bs more : List Block) (ext : List Path),
    (a.extractFiles = true → ∀ x ∈ files, ∃ p ∈ ext, opath x.1 a.extractPaths a.outFolder = .ok p ∧ p ≠ a.srr) →
    s.fs a.srr = some srr →
    PiecesAre srr (storedPieces files) bs →
    ∃ s', recLoop a s (bs ++ more) = recLoop a s' more ∧ s'.rarName = s.rarName ∧ s'.srcName = s.srcName ∧
      s'.fs a.srr = some srr ∧
      (∀ q, (a.extractFiles = true → q ∉ ext) → s'.fs q = s.fs q) ∧ s' = { s with fs := s'.fs } := by
  induction files with
  | nil =>
    intro s bs more ext _ hsrr hb
    cases bs with
    | nil => exact ⟨s, rfl, rfl, rfl, hsrr, fun _ _ => rfl, rfl⟩
    | cons _ _ => exact hb.elim
  | cons x t ih =>
    intro s bs more ext he hsrr hb
    cases bs with
    | nil => exact hb.elim
    | cons b bs =>
      obtain ⟨⟨p1, p2, p3⟩, hb⟩ := hb
      obtain ⟨s1, g1, g2, g3, g4, g5, g6⟩ : ∃ s1, recBlock a s b = .ok (s1, true) ∧ s1.rarName = s.rarName ∧ s1.srcName = s.srcName ∧
          s1.fs a.srr = some srr ∧ (∀ q, (a.extractFiles = true → q ∉ ext) → s1.fs q = s.fs q) ∧ s1 = { s with fs := s1.fs } := by
        unfold recBlock
        rw [p1, if_neg (by decide), if_pos rfl]
        unfold recStored
        cases hx : a.extractFiles with
        | false => exact ⟨s, rfl, rfl, rfl, hsrr, fun _ _ => rfl, rfl⟩
        | true =>
          obtain ⟨p, e1, e2, e3⟩ := he hx x (by simp)
          rw [if_pos rfl, p2]
          dsimp only
          rw [e2, ok_bind]
          unfold extractOne
          by_cases hc : ((s.fs p).isNone || a.ask p) = true
          · rw [if_pos hc]
            have hs1 : (s.fs.set p (some [])) a.srr = some srr := by
              simp only [FS.set, if_neg (fun h : a.srr = p => e3 h.symm)]; exact hsrr
            dsimp only
            rw [hs1]
            dsimp only
            rw [p3]
            refine ⟨_, rfl, rfl, rfl, ?_, ?_, rfl⟩
            · simp only [FS.set, if_neg (fun h : a.srr = p => e3 h.symm)]; exact hsrr
            · intro q hq
              have : q ≠ p := fun hqp => hq rfl (hqp ▸ e1)
              simp [FS.set, this]
          · rw [if_neg hc]
            exact ⟨_, rfl, rfl, rfl, hsrr, fun _ _ => rfl, rfl⟩
      obtain ⟨s2, k1, k2, k3, k4, k5, k6⟩ := ih s1 bs more ext (fun hx y hy => he hx y (List.mem_cons_of_mem _ hy)) g4 hb
      refine ⟨s2, ?_, k2.trans g2, k3.trans g3, k4, fun q hq => (k5 q hq).trans (g5 q hq), by rw [g6] at k6; exact k6⟩
      rw [List.cons_append, recLoop, g1, ok_bind]
      exact k1

theorem restorable_complete {data : Bytes} {tr : List (Block × Nat)} : ∀ {a0 : Nat}, VolTiles data tr a0 →
    (∀ x ∈ tr, Restorable data x.1 x.2) → ∀ b, Piece.rar b ∈ tracePieces tr →
    Complete b ∧ (b.btype < 0x69 ∨ 0x71 < b.btype) := by
  induction tr with
  | nil => intro a0 _ _ b hb; simp [tracePieces] at hb
  | cons x t ih =>
    intro a0 hv hr b hb
    obtain ⟨c, e⟩ := x
    obtain ⟨h1, h2, h3, h4, h5⟩ := hv
    simp only [tracePieces, List.map_cons, List.mem_cons] at hb
    rcases hb with hb | hb
    · split at hb
      · simp at hb
      · rename_i hne
        simp only [Piece.rar.injEq] at hb
        subst hb
        rcases h4 with ⟨_, t2, _⟩ | ⟨f1, f2, f3, f4, f5⟩
        · exact absurd t2 hne
        · rcases hr (b, e) (by simp) with hr | hr
          · exact absurd hr f1
          · refine ⟨f5 hr.2.1, ?_⟩
            have := hr.1
            dsimp only at this
            omega
    · exact ih h5 (fun x hx => hr x (List.mem_cons_of_mem _ hx)) b hb

theorem pieces_ok {files : List (Str × Bytes)} {vols : List (RarIn × Bytes)} {osos : List Piece}
    (hv : ∀ v ∈ vols, GoodVolume v.2) (ho : ∀ p ∈ osos, ∃ x h n, p = Piece.oso x h n) :
    RarPiecesOk (storedPieces files ++ (volumesPieces vols ++ osos)) := by
  intro l b r h
  have hnS : Piece.rar b ∉ storedPieces files := by simp [storedPieces]
  have hnO : Piece.rar b ∉ osos := by
    intro hc
    obtain ⟨_, _, _, hc⟩ := ho _ hc
    simp at hc
  have hmem : Piece.rar b ∈ volumesPieces vols := by
    have : Piece.rar b ∈ storedPieces files ++ (volumesPieces vols ++ osos) := by rw [h]; simp
    simp only [List.mem_append] at this
    rcases this with h | h | h
    · exact absurd h hnS
    · exact h
    · exact absurd h hnO
  have hc : Complete b ∧ (b.btype < 0x69 ∨ 0x71 < b.btype) := by
    unfold volumesPieces at hmem
    obtain ⟨v, hvm, hb⟩ := List.mem_flatMap.mp hmem
    obtain ⟨hm, tr, htr, hres⟩ := hv v hvm
    simp only [List.mem_cons, reduceCtorEq, false_or] at hb
    unfold volumePieces at hb
    rw [htr] at hb
    exact restorable_complete (volTiles_of_read hm htr) hres b hb
  refine ⟨hc.1, hc.2, fun _ => ?_⟩
  cases vols with
  | nil => simp [volumesPieces] at hmem
  | cons v t =>
    refine ⟨v.1.name, ?_⟩
    rcases List.append_eq_append_iff.mp h with ⟨l', e1, e2⟩ | ⟨l', e1, e2⟩
    · cases l' with
      | nil => simp [volumesPieces] at e2
      | cons x l' =>
        simp only [volumesPieces, List.flatMap_cons, List.cons_append, List.cons.injEq] at e2
        rw [e1, ← e2.1]
        simp
    · cases l' with
      | nil => simp [volumesPieces] at e2
      | cons x l' =>
        simp only [List.cons_append, List.cons.injEq] at e2
        exact absurd (by rw [e1, ← e2.1]; simp) hnS

theorem srr_length {app : Str} {files : List (Str × Bytes)} {vols : List (RarIn × Bytes)} {osos : List Piece} {srr : Bytes}
    (h : writeSrr app (storedPieces files ++ (volumesPieces vols ++ osos)) = .ok srr) (hne : vols ≠ [])
    (hv : ∀ v ∈ vols, GoodVolume v.2) : 20 ≤ srr.length := by
  have aux : ∀ (ps qs : List Piece) (x : Bytes), writePieces (ps ++ qs) = .ok x → ∃ y z, writePieces qs = .ok z ∧ x = y ++ z := by
    intro ps
    induction ps with
    | nil => intro qs x hx; exact ⟨[], x, hx, rfl⟩
    | cons p ps ih =>
      intro qs x hx
      rw [List.cons_append] at hx
      simp only [writePieces, bind_eq_ok, pure_eq_ok, Except.ok.injEq] at hx
      obtain ⟨raw, _, rest, h2, rfl⟩ := hx
      obtain ⟨y, z, g1, g2⟩ := ih qs rest h2
      exact ⟨raw ++ (p.data ++ y), z, g1, by rw [g2]; simp⟩
  unfold writeSrr at h
  simp only [bind_eq_ok, pure_eq_ok, Except.ok.injEq] at h
  obtain ⟨hd, h1, rest, h2, h3⟩ := h
  have l1 : 7 ≤ hd.length := complete_len (complete_header h1).1
  obtain ⟨y, z, g1, g2⟩ := aux _ _ _ h2
  cases vols with
  | nil => exact absurd rfl hne
  | cons v t =>
    obtain ⟨hm, tr, htr, hres⟩ := hv v (by simp)
    have hvt := volTiles_of_read hm htr
    cases tr with
    | nil =>
      simp only [VolTiles] at hvt
      unfold openReader at hm
      rw [← hvt] at hm
      simp at hm
    | cons x tr =>
      have hx : ∃ q, volumePieces v.2 = q :: tracePieces tr ∧ (∀ raw, q.raw = .ok raw → 7 ≤ raw.length) := by
        unfold volumePieces
        rw [htr]
        refine ⟨_, rfl, ?_⟩
        intro raw hraw
        dsimp only at hraw
        split at hraw
        · exact complete_len (complete_padding hraw).1
        · rename_i hc
          simp only [Piece.raw, Except.ok.injEq] at hraw
          rw [← hraw]
          have hw := restorable_complete hvt hres x.1 (by simp [tracePieces, hc])
          exact complete_len hw.1
      obtain ⟨q, q1, q2⟩ := hx
      unfold volumesPieces at g1
      rw [List.flatMap_cons, q1] at g1
      simp only [List.cons_append, writePieces, bind_eq_ok, pure_eq_ok, Except.ok.injEq] at g1
      obtain ⟨r0, k1, z1, ⟨r1, k2, z2, _, k3⟩, k4⟩ := g1
      have l2 := q2 r1 k2
      have l3 : 7 ≤ r0.length := complete_len (complete_rarFile k1).1
      rw [← h3, g2, ← k4, ← k3]
      simp only [List.length_append]
      omega

/-- Reading the header and the stored files of an SRR. -/
theorem written_start {app : Str} {files : List (Str × Bytes)} {vols : List (RarIn × Bytes)} {osos : List Piece} {srr : Bytes}
    (f5 : writeSrr app (storedPieces files ++ (volumesPieces vols ++ osos)) = .ok srr)
    (f3 : ∀ p ∈ osos, ∃ s h n, p = Piece.oso s h n)
    (hgood : ∀ v ∈ vols, GoodVolume v.2) (hne : vols ≠ [])
    {a : RecArgs} {fs1 : FS} (hsrr : fs1 a.srr = some srr)
    {ext : List Path}
    (hext : a.extractFiles = true → ∀ x ∈ files, ∃ p ∈ ext, opath x.1 a.extractPaths a.outFolder = .ok p ∧ p ≠ a.srr) :
    ∃ s1 b2 b3, reconstruct a fs1 = (do let (s, go) ← recLoop a s1 (b2 ++ b3); return (s.fs, s.reports, go)) ∧
      PiecesAre srr (volumesPieces vols) b2 ∧ PiecesAre srr osos b3 ∧ s1 = { fs := s1.fs } ∧
      ∀ q, (a.extractFiles = true → q ∉ ext) → s1.fs q = fs1 q := by
  have hlen := srr_length f5 hne hgood
  obtain ⟨hb, blocks, r1, r2, r3, r4⟩ := written_blocks f5 hlen (pieces_ok hgood f3)
  obtain ⟨b1, b23, rfl, p1, p23⟩ := pieces_append r4
  obtain ⟨b2, b3, rfl, p2, p3⟩ := pieces_append p23
  unfold reconstruct
  rw [hsrr]
  dsimp only
  rw [r1, ok_bind, recLoop]
  have hh : recBlock a { fs := fs1 } hb = .ok ({ fs := fs1 }, true) := by
    unfold recBlock
    rw [r2, if_pos rfl, r3]
  rw [hh, ok_bind]
  dsimp only
  rw [if_pos rfl]
  obtain ⟨s1, k1, k2, k3, k4, k5, k6⟩ := rec_stored files { fs := fs1 } b1 (b2 ++ b3) ext
    hext
    hsrr p1
  exact ⟨s1, b2, b3, by rw [k1], p2, p3, k6, k5⟩

/-- An SRR with these stored files, volumes and OSO hashes gives the volumes back, and the
checksums that do not match are reported. -/
theorem written_reports {app : Str} {files : List (Str × Bytes)} {vols : List (RarIn × Bytes)} {osos : List Piece} {srr : Bytes}
    (f5 : writeSrr app (storedPieces files ++ (volumesPieces vols ++ osos)) = .ok srr)
    (f3 : ∀ p ∈ osos, ∃ s h n, p = Piece.oso s h n)
    (hgood : ∀ v ∈ vols, GoodVolume v.2) (hne : vols ≠ [])
    {a : RecArgs} {fs1 : FS} (hsrr : fs1 a.srr = some srr) (hpart : a.part = [])
    {ext : List Path}
    (hext : a.extractFiles = true → ∀ x ∈ files, ∃ p ∈ ext, opath x.1 a.extractPaths a.outFolder = .ok p ∧ p ≠ a.srr)
    {out : RarIn × Bytes → Path}
    (hout : ∀ v ∈ vols, opath v.1.name a.extractPaths a.outFolder = .ok (out v) ∧
      (fs1 (out v) = none ∧ out v ∉ ext ∨ a.ask (out v) = true))
    (hdiff : (vols.map out).Nodup)
    (hsrc : Packs (SourceIs a fs1 (vols.map out ++ ext)) none (vols.flatMap fun v => volumeParts v.2)) :
    ∃ fs2 reports, reconstruct a fs1 = .ok (fs2, reports, true) ∧
      (∀ v ∈ vols, fs2 (out v) = some v.2) ∧
      (∀ q, q ∉ vols.map out → q ∉ ext → fs2 q = fs1 q) ∧
      reports = if a.skipCrc = true then [] else wrongParts none (vols.flatMap fun v => volumeParts v.2) := by
  obtain ⟨s1, b2, b3, e0, p2, p3, k0, k5⟩ := written_start f5 f3 hgood hne hsrr hext
  rw [e0]
  have k2 : s1.rarName = [] := by rw [k0]
  have k3 : s1.srcName = none := by rw [k0]
  have k6 : s1.reports = [] := by rw [k0]
  have hname : ∀ v ∈ vols, v.1.name ≠ [] := by
    intro v hv hc
    have := (hout v hv).1
    rw [hc] at this
    have hbad : opath [] a.extractPaths a.outFolder = .error .valueError := by
      unfold opath osFileNameSrr joinpath
      rfl
    rw [hbad] at this
    simp at this
  obtain ⟨s2, cur, j1, j2, j3, j4, j5, j6⟩ := rec_volumes (fs1 := fs1) (written := vols.map out ++ ext) (srr := srr) (out := out)
    vols s1 none b2 b3 []
    (by
      intro v hv
      obtain ⟨o1, o2⟩ := hout v hv
      refine ⟨hgood v hv, List.mem_append_left _ (List.mem_map_of_mem hv), o1, ?_, ?_, by simp [skipped, hpart], Or.inl hpart⟩
      · rw [k2]; exact hname v hv
      · rcases o2 with ⟨o2, o3⟩ | o2
        · left
          rw [k5 _ (fun _ => o3)]
          exact o2
        · exact Or.inr o2)
    hdiff
    (by
      intro q hq
      exact k5 q (fun _ hc => hq (List.mem_append_right _ hc)))
    (Or.inl k3) p2 (by rw [List.append_nil]; exact hsrc)
  rw [j1, rec_osos osos s2 b3 f3 p3]
  refine ⟨s2.fs, s2.reports, rfl, j3, ?_, ?_⟩
  · intro q h1 h2
    rw [j4 q h1]
    exact k5 q (fun _ => h2)
  · unfold Told at j6
    split at j6
    · rename_i hc
      rw [j6, k6, if_pos hc]
    · rename_i hc
      rw [(j6 none k3).1, k6, if_neg hc]
      rfl

/-- An SRR with these stored files, volumes and OSO hashes gives the volumes back. -/
theorem written_reconstruct {app : Str} {files : List (Str × Bytes)} {vols : List (RarIn × Bytes)} {osos : List Piece} {srr : Bytes}
    (f5 : writeSrr app (storedPieces files ++ (volumesPieces vols ++ osos)) = .ok srr)
    (f3 : ∀ p ∈ osos, ∃ s h n, p = Piece.oso s h n)
    (hgood : ∀ v ∈ vols, GoodVolume v.2) (hne : vols ≠ [])
    {a : RecArgs} {fs1 : FS} (hsrr : fs1 a.srr = some srr) (hpart : a.part = [])
    {ext : List Path}
    (hext : a.extractFiles = true → ∀ x ∈ files, ∃ p ∈ ext, opath x.1 a.extractPaths a.outFolder = .ok p ∧ p ≠ a.srr)
    {out : RarIn × Bytes → Path}
    (hout : ∀ v ∈ vols, opath v.1.name a.extractPaths a.outFolder = .ok (out v) ∧
      (fs1 (out v) = none ∧ out v ∉ ext ∨ a.ask (out v) = true))
    (hdiff : (vols.map out).Nodup)
    (hsrc : Packs (SourceIs a fs1 (vols.map out ++ ext)) none (vols.flatMap fun v => volumeParts v.2)) :
    ∃ fs2 reports, reconstruct a fs1 = .ok (fs2, reports, true) ∧
      (∀ v ∈ vols, fs2 (out v) = some v.2) ∧
      ∀ q, q ∉ vols.map out → q ∉ ext → fs2 q = fs1 q := by
  obtain ⟨fs2, reports, h1, h2, h3, _⟩ := written_reports f5 f3 hgood hne hsrr hpart hext hout hdiff hsrc
  exact ⟨fs2, reports, h1, h2, h3⟩

/-- C06: reconstruction from a created SRR gives the original volumes.  The volumes `vols`
(their paths, names and contents) can be rebuilt, and the SRR was made from them.  Later, with
the SRR and the archived files on disk, the volumes go to different places that are free or may
be overwritten, and the stored files are not written over the SRR.  Then every volume is
reconstructed byte for byte, and no other file than these and the extracted ones is changed. -/
theorem create_reconstruct {dig : Nat → Bool} {lower : Str → Str} {fuel : Nat} {fs0 : FS} {app : Str}
    {stored : List (Str × Path)} {vols : List (RarIn × Bytes)} {compressed oso : Bool} {srr : Bytes}
    (hcreate : createSrr dig lower fuel fs0 app stored (vols.map (·.1)) compressed oso = .ok srr)
    (hvols : ∀ v ∈ vols, fs0 v.1.exact = some v.2 ∧ GoodVolume v.2) (hne : vols ≠ [])
    {a : RecArgs} {fs1 : FS} (hsrr : fs1 a.srr = some srr) (hpart : a.part = [])
    {ext : List Path}
    (hext : a.extractFiles = true → ∀ x ∈ stored, ∃ p ∈ ext, opath x.1 a.extractPaths a.outFolder = .ok p ∧ p ≠ a.srr)
    {out : RarIn × Bytes → Path}
    (hout : ∀ v ∈ vols, opath v.1.name a.extractPaths a.outFolder = .ok (out v) ∧
      (fs1 (out v) = none ∧ out v ∉ ext ∨ a.ask (out v) = true))
    (hdiff : (vols.map out).Nodup)
    (hsrc : Packs (SourceIs a fs1 (vols.map out ++ ext)) none (vols.flatMap fun v => volumeParts v.2)) :
    ∃ fs2 reports, reconstruct a fs1 = .ok (fs2, reports, true) ∧
      (∀ v ∈ vols, fs2 (out v) = some v.2) ∧
      ∀ q, q ∉ vols.map out → q ∉ ext → fs2 q = fs1 q := by
  obtain ⟨files, osos, f1, f2, f3, f4, f5⟩ := create_pieces hcreate hvols
  refine written_reconstruct f5 f3 (fun v hv => (hvols v hv).2) hne hsrr hpart (fun hx x hxm => ?_) hout hdiff hsrc
  have : x.1 ∈ stored.map (·.1) := by rw [← f1]; exact List.mem_map_of_mem hxm
  obtain ⟨y, hy, hyx⟩ := List.mem_map.mp this
  obtain ⟨p, e1, e2, e3⟩ := hext hx y hy
  exact ⟨p, e1, by rw [← hyx]; exact e2, e3⟩

end Rescene.Props
