import Verif.Props.Wmv
import Verif.Props.MkvEnds
/-
C67: loops over the objects of a WMV file end, unless they come to an object that claims to be empty.
-/
namespace Rescene.Props
open Rescene Rescene.Spec

theorem throw_no_fuel {α : Type} {e : Err} (h : e ≠ .fuel) : (throw e : Res α) ≠ .error .fuel := by
  rw [throw_eq_error]
  intro hh
  injection hh with hh
  exact h hh

theorem fieldValue_never_fuel (bits : Nat) (data : Bytes) (off : Nat) : asfFieldValue bits data off ≠ .error .fuel := by
  unfold asfFieldValue
  split
  · simp
  · exact unpackAt_no_fuel

theorem asfCount_never_fuel {srs : Bool} {data : Bytes} {start : Nat} {len : Int} : ∀ fuel used turns,
    asfCount srs data start len fuel used turns ≠ .error .fuel
  | 0, used, _ => by unfold asfCount; split <;> simp
  | fuel + 1, used, turns => by
    unfold asfCount
    split
    · exact bind_no_fuel unpackAt_no_fuel fun _ _ => bind_no_fuel (asfCount_never_fuel fuel _ _) fun _ _ => by simp
    · split <;> simp

theorem asfCompressed_never_fuel {srs : Bool} {data : Bytes} {stream : Nat} : ∀ k hs skip,
    asfCompressed srs data stream k hs skip ≠ .error .fuel
  | 0, _, _ => by simp [asfCompressed]
  | k + 1, hs, skip => by
    unfold asfCompressed
    exact bind_no_fuel unpackAt_no_fuel fun _ _ => bind_no_fuel (asfCompressed_never_fuel k _ _) fun _ _ => by simp

theorem asfPayloads_never_fuel {srs multi : Bool} {prop : Nat} {data : Bytes} {datalen : Int} : ∀ n skip,
    asfPayloads srs multi prop data datalen n skip ≠ .error .fuel
  | 0, _ => by simp [asfPayloads]
  | n + 1, skip => by
    unfold asfPayloads
    dsimp only
    split
    · simp
    · refine bind_no_fuel unpackAt_no_fuel fun _ _ => ?_
      split
      · exact throw_no_fuel (by decide)
      · refine bind_no_fuel (fieldValue_never_fuel _ _ _) fun _ _ => bind_no_fuel (fieldValue_never_fuel _ _ _) fun _ _ =>
          bind_no_fuel (fieldValue_never_fuel _ _ _) fun rl _ => bind_no_fuel ?_ fun _ _ => bind_no_fuel ?_ fun x _ => ?_
        · split
          · split
            · simp
            · exact bind_no_fuel unpackAt_no_fuel fun _ _ => by simp
          · split
            · split
              · simp
              · exact bind_no_fuel unpackAt_no_fuel fun _ _ => by simp
            · simp
        · split
          · split
            · simp
            · exact bind_no_fuel unpackAt_no_fuel fun _ _ => by simp
          · simp
        · split
          · exact bind_no_fuel (asfCount_never_fuel _ _ _) fun _ _ => bind_no_fuel (asfCompressed_never_fuel _ _ _) fun _ _ =>
              bind_no_fuel (asfPayloads_never_fuel _ _) fun _ _ => by simp
          · exact ite_no_fuel (throw_no_fuel (by decide)) (bind_no_fuel (asfPayloads_never_fuel _ _) fun _ _ => by simp)

theorem asfPacket_never_fuel (srs : Bool) (data : Bytes) (psize : Int) : asfPacket srs data psize ≠ .error .fuel := by
  unfold asfPacket
  refine bind_no_fuel unpackAt_no_fuel fun _ _ => ?_
  split
  · exact throw_no_fuel (by decide)
  · split
    · exact throw_no_fuel (by decide)
    · split
      · exact throw_no_fuel (by decide)
      · refine bind_no_fuel unpackAt_no_fuel fun _ _ => bind_no_fuel unpackAt_no_fuel fun _ _ => bind_no_fuel ?_ fun x _ => ?_
        · unfold asfPacketFields
          dsimp only
          split
          · simp
          · split
            · simp
            · exact bind_no_fuel (fieldValue_never_fuel _ _ _) fun _ _ => bind_no_fuel (fieldValue_never_fuel _ _ _) fun _ _ =>
                bind_no_fuel (fieldValue_never_fuel _ _ _) fun _ _ => bind_no_fuel unpackAt_no_fuel fun _ _ =>
                  bind_no_fuel unpackAt_no_fuel fun _ _ => by simp
        · dsimp only
          refine ite_no_fuel (throw_no_fuel (by decide)) ?_
          · refine bind_no_fuel ?_ fun y _ => bind_no_fuel (asfPayloads_never_fuel _ _) fun _ _ => ?_
            · split
              · split
                · simp
                · refine bind_no_fuel unpackAt_no_fuel fun _ _ => ?_
                  split
                  · exact throw_no_fuel (by decide)
                  · split
                    · exact throw_no_fuel (by decide)
                    · simp
              · simp
            · exact ite_no_fuel (by simp) (ite_no_fuel (throw_no_fuel (by decide)) (by simp))

theorem asfPackets_never_fuel (osize : Nat) (raw : Bytes) : asfPackets osize raw ≠ .error .fuel := by
  unfold asfPackets
  refine bind_no_fuel unpackAt_no_fuel fun _ _ => ?_
  split
  · exact throw_no_fuel (by decide)
  · simp

theorem asfSrsSize_never_fuel {file : Bytes} {psize : Int} : ∀ n off, asfSrsSize file psize n off ≠ .error .fuel
  | 0, _ => by simp [asfSrsSize]
  | n + 1, off => by
    unfold asfSrsSize
    exact bind_no_fuel (asfPacket_never_fuel _ _ _) fun _ _ => bind_no_fuel (asfSrsSize_never_fuel _ _) fun _ _ => by simp

theorem asfRead_never_fuel (mode : AsfMode) (file : Bytes) (pos : Nat) : asfRead mode file pos ≠ .error .fuel := by
  unfold asfRead
  split
  · simp
  · refine bind_no_fuel unpackAt_no_fuel fun _ _ => ?_
    split
    · exact throw_no_fuel (by decide)
    · dsimp only
      split
      · exact bind_no_fuel (asfPackets_never_fuel _ _) fun _ _ => bind_no_fuel (asfSrsSize_never_fuel _ _) fun _ _ => by simp
      · simp

theorem asfPart_never_fuel (file : Bytes) (off : Nat) (n : Int) : asfPart file off n ≠ .error .fuel := by
  unfold asfPart
  split
  · simp
  · split <;> simp

theorem asfContents_never_fuel (file : Bytes) (o : AsfObj) : asfContents file o ≠ .error .fuel := by
  unfold asfContents
  split
  · simp
  · split <;> simp

theorem asfSkip_never_fuel (o : AsfObj) : asfSkip o ≠ .error .fuel := by
  unfold asfSkip
  split <;> simp

theorem asfPacketLoop_never_fuel {σ : Type} {file : Bytes} {psize : Int} {f : σ → Nat → Bytes → Res (σ × Bool)}
    (h : ∀ s o b, f s o b ≠ .error .fuel) : ∀ n off s, asfPacketLoop file psize f n off s ≠ .error .fuel
  | 0, _, _ => by simp [asfPacketLoop]
  | n + 1, off, s => by
    unfold asfPacketLoop
    refine bind_no_fuel (asfPart_never_fuel _ _ _) fun _ _ => bind_no_fuel (h _ _ _) fun x _ => ?_
    dsimp only
    split
    · exact asfPacketLoop_never_fuel h _ _ _
    · simp

theorem foldlM_never_fuel {α σ : Type} {f : σ → α → Res σ} (h : ∀ s a, f s a ≠ .error .fuel) : ∀ (l : List α) (s : σ), l.foldlM f s ≠ .error .fuel
  | [], _ => by simp
  | a :: l, s => by
    rw [List.foldlM_cons]
    exact bind_no_fuel (h _ _) fun _ _ => foldlM_never_fuel h l _

/-- A place in the file where an object would claim to have no bytes. -/
def EmptyObject (file : Bytes) : Prop := ∃ pos, pos + 24 ≤ file.length ∧ (file.drop (pos + 16)).take 8 = List.replicate 8 0

/-- What `read` gives. -/
theorem asfRead_some {mode : AsfMode} {file : Bytes} {pos : Nat} {o : AsfObj} (h : asfRead mode file pos = .ok (some o)) :
    pos + 24 ≤ file.length ∧ o.start = pos ∧ 24 ≤ o.raw.length ∧ pos + o.raw.length ≤ file.length ∧
      (o.size ≠ 0 ∨ EmptyObject file) := by
  unfold asfRead at h
  split at h
  · simp at h
  · rename_i hl
    simp only [bind_eq_ok] at h
    obtain ⟨size, hsz, h⟩ := h
    have hz : size ≠ 0 ∨ EmptyObject file := by
      by_cases h0 : size = 0
      · right
        subst h0
        refine ⟨pos, by omega, ?_⟩
        have hu := hsz
        unfold unpackAt at hu
        split at hu
        · rename_i hlen
          simp only [Except.ok.injEq] at hu
          have he : slice (readAt file pos 24) 16 (16 + 8) = (file.drop (pos + 16)).take 8 := by
            simp only [slice, readAt, List.drop_take, List.drop_drop]
            rw [List.take_take]
            congr 1
          have hlen8 : (slice (readAt file pos 24) 16 (16 + 8)).length = 8 := by
            simp [slice, readAt]; omega
          have := le_ofLe (slice (readAt file pos 24) 16 (16 + 8))
          rw [hu, hlen8] at this
          rw [← he, ← this]
          rfl
        · simp at hu
      · exact Or.inl h0
    have hr : (readAt file pos 24).length = 24 := by simp [readAt]; omega
    split at h
    · simp at h
    · try dsimp only at h
      have hraw : ∀ raw, raw = readAt file pos 24 ++ (if (readAt file pos 24).take 16 = asfHeaderGuid then readAt file (pos + 24) 6
        else if (readAt file pos 24).take 16 = asfDataGuid then readAt file (pos + 24) 26 else []) →
        24 ≤ raw.length ∧ pos + raw.length ≤ file.length := by
        rintro raw rfl
        rw [List.length_append, hr]
        refine ⟨by omega, ?_⟩
        split
        · simp [readAt]; omega
        · split
          · simp [readAt]; omega
          · simp; omega
      split at h
      · simp only [bind_eq_ok, pure_eq_ok, Except.ok.injEq, Option.some.injEq] at h
        obtain ⟨x, _, s, _, rfl⟩ := h
        obtain ⟨h1, h2⟩ := hraw _ rfl
        exact ⟨by omega, rfl, h1, h2, Or.inl (by dsimp only; omega)⟩
      · simp only [pure_eq_ok, Except.ok.injEq, Option.some.injEq] at h
        subst h
        obtain ⟨h1, h2⟩ := hraw _ rfl
        exact ⟨by omega, rfl, h1, h2, hz⟩

theorem contents_moves {mode : AsfMode} {file : Bytes} {pos : Nat} {o : AsfObj} (h : asfRead mode file pos = .ok (some o))
    {d : Bytes} {q : Nat} (hc : asfContents file o = .ok (d, q)) : pos < q := by
  obtain ⟨h1, h2, h3, h4, _⟩ := asfRead_some h
  unfold asfContents at hc
  split at hc
  · simp only [Except.ok.injEq, Prod.mk.injEq] at hc
    omega
  · split at hc
    · simp only [Except.ok.injEq, Prod.mk.injEq] at hc
      omega
    · simp at hc

theorem skip_moves {mode : AsfMode} {file : Bytes} {pos : Nat} {o : AsfObj} (h : asfRead mode file pos = .ok (some o))
    {q : Nat} (hc : asfSkip o = .ok q) (hz : ¬ EmptyObject file) : pos < q := by
  obtain ⟨h1, h2, h3, h4, h5⟩ := asfRead_some h
  unfold asfSkip at hc
  split at hc
  · simp only [Except.ok.injEq] at hc
    have := h5.resolve_right hz
    omega
  · simp at hc

/-- Packets that were read have a size. -/
theorem packets_positive {σ : Type} {file : Bytes} {psize : Int} {f : σ → Nat → Bytes → Res (σ × Bool)}
    (h : ∀ s o b x, f s o b = .ok x → 3 ≤ psize) {n off : Nat} {s : σ} {r : σ × Bool} (hn : n ≠ 0)
    (hl : asfPacketLoop file psize f n off s = .ok r) : 3 ≤ psize := by
  cases n with
  | zero => exact absurd rfl hn
  | succ n =>
    rw [asfPacketLoop] at hl
    simp only [bind_eq_ok] at hl
    obtain ⟨_, _, x, hx, _⟩ := hl
    exact h _ _ _ _ hx

theorem asfPacket_positive {srs : Bool} {data : Bytes} {psize : Int} {p : AsfPacket} (h : asfPacket srs data psize = .ok p) : 3 ≤ psize := by
  unfold asfPacket at h
  simp only [bind_eq_ok] at h
  obtain ⟨_, _, h⟩ := h
  split at h
  · simp at h
  · split at h
    · simp at h
    · omega

theorem asfPackets_some {osize : Nat} {raw : Bytes} {n : Nat} {psize : Int} (h : asfPackets osize raw = .ok (n, psize)) : n ≠ 0 := by
  unfold asfPackets at h
  simp only [bind_eq_ok] at h
  obtain ⟨m, _, h⟩ := h
  split at h
  · simp at h
  · simp only [pure_eq_ok, Except.ok.injEq, Prod.mk.injEq] at h
    omega

theorem wmvProfilePayload_never_fuel (ts : Tracks) (p : AsfPayload) : wmvProfilePayload ts p ≠ .error .fuel := by
  unfold wmvProfilePayload
  dsimp only
  split
  · simp
  · split <;> simp

theorem wmvProfileLoop_never_fuel {file : Bytes} : ∀ fuel pos s, file.length < pos + fuel → 0 < fuel →
    wmvProfileLoop file fuel pos s ≠ .error .fuel
  | 0, _, _, _, h => absurd h (by decide)
  | fuel + 1, pos, s, hfu, _ => by
    unfold wmvProfileLoop
    refine bind_no_fuel (asfRead_never_fuel _ _ _) fun x hx => ?_
    cases x with
    | none => simp
    | some o =>
      obtain ⟨h1, h2, h3, h4, h5⟩ := asfRead_some hx
      dsimp only
      split
      · exact wmvProfileLoop_never_fuel _ _ _ (by omega) (by omega)
      · split
        · refine bind_no_fuel (asfPackets_never_fuel _ _) fun y hy => bind_no_fuel (asfPacketLoop_never_fuel ?_ _ _ _) fun z hz => ?_
          · intro s off b
            unfold wmvProfilePacket
            refine bind_no_fuel (asfPacket_never_fuel _ _ _) fun _ _ => bind_no_fuel (foldlM_never_fuel wmvProfilePayload_never_fuel _ _) fun _ _ => ?_
            dsimp only
            split
            · exact throw_no_fuel (by decide)
            · simp
          · try dsimp only
            split
            · exact throw_no_fuel (by decide)
            · rename_i hsz
              have hpos := packets_positive (fun s o b x hh => by
                unfold wmvProfilePacket at hh
                simp only [bind_eq_ok] at hh
                obtain ⟨p, hp, _⟩ := hh
                exact asfPacket_positive hp) (asfPackets_some hy) hz
              have : 0 ≤ (y.1 : Int) * y.2 := Int.mul_nonneg (by omega) (by omega)
              exact wmvProfileLoop_never_fuel _ _ _ (by omega) (by omega)
        · refine bind_no_fuel (asfContents_never_fuel _ _) fun y hy => ?_
          have := contents_moves hx hy
          refine bind_no_fuel ?_ fun _ _ => bind_no_fuel ?_ fun _ _ => wmvProfileLoop_never_fuel _ _ _ (by omega) (by omega)
          · split
            · refine bind_no_fuel unpackAt_no_fuel fun _ _ => ?_
              split
              · exact throw_no_fuel (by decide)
              · simp
            · simp
          · split
            · exact unpackAt_no_fuel
            · simp

theorem wmvCreateLoop_never_fuel {own : Res Bytes} (hown : own ≠ .error .fuel) {file : Bytes} : ∀ fuel pos out, file.length < pos + fuel → 0 < fuel →
    wmvCreateLoop own file fuel pos out ≠ .error .fuel
  | 0, _, _, _, h => absurd h (by decide)
  | fuel + 1, pos, s, hfu, _ => by
    unfold wmvCreateLoop
    refine bind_no_fuel (asfRead_never_fuel _ _ _) fun x hx => ?_
    cases x with
    | none => simp
    | some o =>
      obtain ⟨h1, h2, h3, h4, h5⟩ := asfRead_some hx
      dsimp only
      split
      · refine bind_no_fuel (asfPackets_never_fuel _ _) fun y hy => bind_no_fuel (asfPacketLoop_never_fuel ?_ _ _ _) fun z hz =>
          bind_no_fuel hown fun _ _ => ?_
        · intro s off b
          unfold wmvCreatePacket
          exact bind_no_fuel (asfPacket_never_fuel _ _ _) fun _ _ => by simp
        · split
          · exact throw_no_fuel (by decide)
          · rename_i hsz
            have hpos := packets_positive (fun s o b x hh => by
              unfold wmvCreatePacket at hh
              simp only [bind_eq_ok] at hh
              obtain ⟨p, hp, _⟩ := hh
              exact asfPacket_positive hp) (asfPackets_some hy) hz
            have : 0 ≤ (y.1 : Int) * y.2 := Int.mul_nonneg (by omega) (by omega)
            exact wmvCreateLoop_never_fuel hown _ _ _ (by omega) (by omega)
      · refine bind_no_fuel (asfContents_never_fuel _ _) fun y hy => ?_
        have := contents_moves hx hy
        exact wmvCreateLoop_never_fuel hown _ _ _ (by omega) (by omega)

theorem fileSerialize_never_fuel (app name : Str) (flags size crc : Nat) : fileSerialize app flags name size crc ≠ .error .fuel := by
  unfold fileSerialize
  exact bind_no_fuel (utf8Enc_never_fuel _) fun _ _ => bind_no_fuel (utf8Enc_never_fuel _) fun _ _ => bind_no_fuel (pack_never_fuel _ _) fun _ _ =>
    bind_no_fuel (pack_never_fuel _ _) fun _ _ => bind_no_fuel (pack_never_fuel _ _) fun _ _ => bind_no_fuel (pack_never_fuel _ _) fun _ _ =>
      bind_no_fuel (pack_never_fuel _ _) fun _ _ => by simp

theorem trackSerialize_never_fuel (t : TrackData) : trackSerialize t ≠ .error .fuel := by
  unfold trackSerialize
  refine bind_no_fuel (pack_never_fuel _ _) fun _ _ => bind_no_fuel ?_ fun _ _ => bind_no_fuel ?_ fun _ _ =>
    bind_no_fuel (packInt_never_fuel _ _) fun _ _ => bind_no_fuel (pack_never_fuel _ _) fun _ _ => by simp
  · split <;> exact pack_never_fuel _ _
  · split <;> exact pack_never_fuel _ _

theorem asfBlock_never_fuel (guid data : Bytes) : asfBlock guid data ≠ .error .fuel := by
  unfold asfBlock
  exact bind_no_fuel (pack_never_fuel _ _) fun _ _ => by simp

theorem wmvSrsObjects_never_fuel (app name : Str) (size crc : Nat) (tracks : Tracks) (pad : Option Bytes) (big : Bool) :
    wmvSrsObjects app name size crc tracks pad big ≠ .error .fuel := by
  unfold wmvSrsObjects
  refine bind_no_fuel (fileSerialize_never_fuel _ _ _ _ _) fun _ _ => bind_no_fuel (asfBlock_never_fuel _ _) fun _ _ =>
    bind_no_fuel (mapM_never_fuel ?_ _) fun _ _ => ?_
  · rintro ⟨n, t⟩
    exact bind_no_fuel (trackSerialize_never_fuel _) fun _ _ => asfBlock_never_fuel _ _
  · split
    · exact throw_no_fuel (by decide)
    · refine bind_no_fuel ?_ fun _ _ => by simp
      split
      · simp
      · exact asfBlock_never_fuel _ _

theorem wmvFindPayload_never_fuel (s : Tracks × Bool) (prev : Nat) (p : AsfPayload) : wmvFindPayload s prev p ≠ .error .fuel := by
  unfold wmvFindPayload
  dsimp only
  repeat' split
  all_goals simp

theorem wmvFindPayloads_never_fuel : ∀ ps prev s, wmvFindPayloads ps prev s ≠ .error .fuel
  | [], _, _ => by simp [wmvFindPayloads]
  | p :: ps, prev, s => by
    unfold wmvFindPayloads
    exact bind_no_fuel (wmvFindPayload_never_fuel _ _ _) fun _ _ => wmvFindPayloads_never_fuel _ _ _

theorem wmvFindLoop_never_fuel {file : Bytes} (hz : ¬ EmptyObject file) : ∀ fuel pos s, file.length < pos + fuel → 0 < fuel →
    wmvFindLoop file fuel pos s ≠ .error .fuel
  | 0, _, _, _, h => absurd h (by decide)
  | fuel + 1, pos, s, hfu, _ => by
    unfold wmvFindLoop
    refine bind_no_fuel (asfRead_never_fuel _ _ _) fun x hx => ?_
    cases x with
    | none => simp
    | some o =>
      obtain ⟨h1, _⟩ := asfRead_some hx
      dsimp only
      split
      · refine bind_no_fuel (asfPackets_never_fuel _ _) fun y hy => bind_no_fuel (asfPacketLoop_never_fuel ?_ _ _ _) fun z hz =>
          bind_no_fuel (asfSkip_never_fuel _) fun _ _ => by simp
        intro s off b
        unfold wmvFindPacket
        exact bind_no_fuel (asfPacket_never_fuel _ _ _) fun _ _ => bind_no_fuel (wmvFindPayloads_never_fuel _ _ _) fun _ _ => by simp
      · refine bind_no_fuel (asfSkip_never_fuel _) fun q hq => ?_
        have := skip_moves hx hq hz
        exact wmvFindLoop_never_fuel hz _ _ _ (by omega) (by omega)

theorem wmvExtractLoop_never_fuel {file : Bytes} {psize : Int} {start : Nat} : ∀ n off s,
    wmvExtractLoop file psize start n off s ≠ .error .fuel
  | 0, _, _ => by simp [wmvExtractLoop]
  | n + 1, off, s => by
    unfold wmvExtractLoop
    split
    · exact wmvExtractLoop_never_fuel _ _ _
    · refine bind_no_fuel (asfPart_never_fuel _ _ _) fun _ _ => ?_
      split
      · exact throw_no_fuel (by decide)
      · refine bind_no_fuel (asfPacket_never_fuel _ _ _) fun _ _ => ?_
        dsimp only
        split
        · simp
        · exact wmvExtractLoop_never_fuel _ _ _

theorem wmvExtractObjects_never_fuel {file : Bytes} {start : Nat} (hz : ¬ EmptyObject file) : ∀ fuel pos s, file.length < pos + fuel → 0 < fuel →
    wmvExtractObjects file start fuel pos s ≠ .error .fuel
  | 0, _, _, _, h => absurd h (by decide)
  | fuel + 1, pos, s, hfu, _ => by
    unfold wmvExtractObjects
    refine bind_no_fuel (asfRead_never_fuel _ _ _) fun x hx => ?_
    cases x with
    | none => simp
    | some o =>
      obtain ⟨h1, _⟩ := asfRead_some hx
      dsimp only
      split
      · simp
      · split
        · refine bind_no_fuel (asfPackets_never_fuel _ _) fun y hy => bind_no_fuel (wmvExtractLoop_never_fuel _ _ _) fun _ _ =>
            bind_no_fuel (asfSkip_never_fuel _) fun q hq => ?_
          have := skip_moves hx hq hz
          exact wmvExtractObjects_never_fuel hz _ _ _ (by omega) (by omega)
        · refine bind_no_fuel (asfSkip_never_fuel _) fun q hq => ?_
          have := skip_moves hx hq hz
          exact wmvExtractObjects_never_fuel hz _ _ _ (by omega) (by omega)

theorem wmvLoadLoop_never_fuel {file : Bytes} (hz : ¬ EmptyObject file) : ∀ fuel pos s, file.length < pos + fuel → 0 < fuel →
    wmvLoadLoop file fuel pos s ≠ .error .fuel
  | 0, _, _, _, h => absurd h (by decide)
  | fuel + 1, pos, s, hfu, _ => by
    unfold wmvLoadLoop
    refine bind_no_fuel (asfRead_never_fuel _ _ _) fun x hx => ?_
    cases x with
    | none => simp
    | some o =>
      obtain ⟨h1, _⟩ := asfRead_some hx
      dsimp only
      split
      · refine bind_no_fuel (asfContents_never_fuel _ _) fun y hy => bind_no_fuel (fileParse_never_fuel _) fun _ _ => ?_
        have := contents_moves hx hy
        exact wmvLoadLoop_never_fuel hz _ _ _ (by omega) (by omega)
      · split
        · refine bind_no_fuel (asfContents_never_fuel _ _) fun y hy => bind_no_fuel (trackParse_never_fuel _) fun _ _ => ?_
          have := contents_moves hx hy
          exact wmvLoadLoop_never_fuel hz _ _ _ (by omega) (by omega)
        · split
          · refine bind_no_fuel (asfContents_never_fuel _ _) fun y hy => ?_
            have := contents_moves hx hy
            try dsimp only
            split
            · exact throw_no_fuel (by decide)
            · exact wmvLoadLoop_never_fuel hz _ _ _ (by omega) (by omega)
          · refine bind_no_fuel (asfSkip_never_fuel _) fun q hq => ?_
            have := skip_moves hx hq hz
            exact wmvLoadLoop_never_fuel hz _ _ _ (by omega) (by omega)

theorem wmvRebuildPayload_never_fuel (tracks : Tracks) (s : WmvRebuild) (p : AsfPayload) : wmvRebuildPayload tracks s p ≠ .error .fuel := by
  unfold wmvRebuildPayload
  dsimp only
  repeat' split
  all_goals simp

theorem wmvRebuildLoop_never_fuel {file : Bytes} {psize : Int} {fin : Nat} {tracks : Tracks} {padding : Option Bytes} : ∀ n off s,
    wmvRebuildLoop file psize fin tracks padding n off s ≠ .error .fuel
  | 0, _, _ => by simp [wmvRebuildLoop]
  | n + 1, off, (s, d, e) => by
    unfold wmvRebuildLoop
    exact bind_no_fuel (asfPart_never_fuel _ _ _) fun _ _ => bind_no_fuel (asfPacket_never_fuel _ _ _) fun _ _ =>
      bind_no_fuel (foldlM_never_fuel (wmvRebuildPayload_never_fuel _) _ _) fun _ _ => wmvRebuildLoop_never_fuel _ _ _

/-- Packets of an SRS that were read: at least one, so that their size is positive. -/
theorem wmvRebuildLoop_positive {file : Bytes} {psize : Int} {fin : Nat} {tracks : Tracks} {padding : Option Bytes} {n off : Nat}
    {s : WmvRebuild × Bool × Nat} {r : WmvRebuild × Bool × Nat} (hn : n ≠ 0)
    (h : wmvRebuildLoop file psize fin tracks padding n off s = .ok r) : 3 ≤ psize := by
  cases n with
  | zero => exact absurd rfl hn
  | succ n =>
    obtain ⟨s, d, e⟩ := s
    rw [wmvRebuildLoop] at h
    simp only [bind_eq_ok] at h
    obtain ⟨_, _, p, hp, _⟩ := h
    exact asfPacket_positive hp

/-- The position after the packets is not in front of them. -/
theorem wmvRebuildLoop_pos {file : Bytes} {psize : Int} {fin : Nat} {tracks : Tracks} {padding : Option Bytes} {low : Nat} : ∀ {n off : Nat}
    {s r : WmvRebuild × Bool × Nat}, low ≤ off → low ≤ s.2.2 →
    wmvRebuildLoop file psize fin tracks padding n off s = .ok r → low ≤ r.2.2 := by
  intro n
  induction n with
  | zero => intro off s r _ h1 h; rw [wmvRebuildLoop] at h; injection h with h; rw [← h]; exact h1
  | succ n ih =>
    intro off s r h0 h1 h
    obtain ⟨s, d, e⟩ := s
    rw [wmvRebuildLoop] at h
    simp only [bind_eq_ok] at h
    obtain ⟨b, _, p, hp, s', _, h⟩ := h
    exact ih (by omega) (by dsimp only; omega) h

theorem wmvRebuildObjects_never_fuel {file : Bytes} {tracks : Tracks} {padding : Option Bytes} (hz : ¬ EmptyObject file) :
    ∀ fuel pos s, file.length < pos + fuel → 0 < fuel → wmvRebuildObjects file tracks padding fuel pos s ≠ .error .fuel
  | 0, _, _, _, h => absurd h (by decide)
  | fuel + 1, pos, s, hfu, _ => by
    unfold wmvRebuildObjects
    refine bind_no_fuel (asfRead_never_fuel _ _ _) fun x hx => ?_
    cases x with
    | none => simp
    | some o =>
      obtain ⟨h1, h2, h3, h4, h5⟩ := asfRead_some hx
      dsimp only
      split
      · refine bind_no_fuel (asfSkip_never_fuel _) fun q hq => ?_
        have := skip_moves hx hq hz
        exact wmvRebuildObjects_never_fuel hz _ _ _ (by omega) (by omega)
      · split
        · refine bind_no_fuel (asfPackets_never_fuel _ _) fun y hy => bind_no_fuel (wmvRebuildLoop_never_fuel _ _ _) fun z hl => ?_
          have := wmvRebuildLoop_pos (low := pos + o.raw.length) (by omega) (by dsimp only; omega) hl
          obtain ⟨s', d, e⟩ := z
          refine bind_no_fuel ?_ fun q hq => ?_
          · dsimp only
            split
            · simp
            · exact asfSkip_never_fuel _
          · have : pos < q := by
              dsimp only at hq this
              split at hq
              · injection hq with hq
                omega
              · exact skip_moves hx hq hz
            exact wmvRebuildObjects_never_fuel hz _ _ _ (by omega) (by omega)
        · refine bind_no_fuel (asfContents_never_fuel _ _) fun y hy => ?_
          have := contents_moves hx hy
          exact wmvRebuildObjects_never_fuel hz _ _ _ (by omega) (by omega)

/-- C67: reading a sample and creating its SRS ends, whatever the file and without `-c`. -/
theorem wmv_create_ends (app name : Str) (sample : Bytes) (big : Bool) : srsWmvCreate app name sample big none ≠ .error .fuel := by
  unfold srsWmvCreate
  split
  · simp
  · refine bind_no_fuel ?_ fun x _ => ?_
    · unfold wmvProfile
      refine bind_no_fuel (wmvProfileLoop_never_fuel _ _ _ (by omega) (by omega)) fun _ _ => ?_
      split
      · exact throw_no_fuel (by decide)
      · simp
    · dsimp only
      split
      · exact throw_no_fuel (by decide)
      · refine bind_no_fuel (by simp) fun _ _ => ?_
        exact wmvCreateLoop_never_fuel (wmvSrsObjects_never_fuel _ _ _ _ _ _ _) _ _ _ (by omega) (by omega)

/-- C67: reading an SRS ends, unless there is an object that claims to have no bytes. -/
theorem wmv_load_ends (srs : Bytes) (h : ¬ EmptyObject srs) : wmvLoadSrs srs ≠ .error .fuel := by
  unfold wmvLoadSrs
  refine bind_no_fuel (wmvLoadLoop_never_fuel h _ _ _ (by omega) (by omega)) fun x _ => ?_
  split
  · exact throw_no_fuel (by decide)
  · simp

/-- C67: rebuilding a sample ends, unless the SRS or the main file has an object that claims to have no
bytes. -/
theorem wmv_reconstruct_ends (srs main : Bytes) (ignoreOffset : Bool) (h : ¬ EmptyObject srs) (hm : ¬ EmptyObject main) :
    srsWmvReconstruct srs main ignoreOffset ≠ .error .fuel := by
  unfold srsWmvReconstruct
  refine bind_no_fuel (wmv_load_ends srs h) fun x _ => bind_no_fuel ?_ fun _ _ => bind_no_fuel ?_ fun _ _ => ?_
  · try dsimp only
    split
    · refine bind_no_fuel (wmvFindLoop_never_fuel hm _ _ _ (by omega) (by omega)) fun _ _ => ?_
      split
      · exact throw_no_fuel (by decide)
      · simp
    · simp
  · unfold wmvExtract
    exact bind_no_fuel (wmvExtractObjects_never_fuel hm _ _ _ (by omega) (by omega)) fun _ _ => by simp
  · dsimp only
    split
    · exact throw_no_fuel (by decide)
    · refine bind_no_fuel ?_ fun _ _ => by simp
      unfold wmvRebuild
      exact bind_no_fuel (wmvRebuildObjects_never_fuel h _ _ _ (by omega) (by omega)) fun _ _ => by simp

/-- What is read at an object that claims to have no bytes. -/
theorem asfRead_zero {mode : AsfMode} {guid rest : Bytes} (hg : guid.length = 16) (hd : guid ≠ asfDataGuid) :
    ∃ o : AsfObj, asfRead mode (guid ++ (List.replicate 8 0 ++ rest)) 0 = .ok (some o) ∧ o.guid = guid ∧ o.start = 0 ∧ o.size = 0 := by
  have hl : ¬ 0 + 24 > (guid ++ (List.replicate 8 0 ++ rest)).length := by simp [hg]; omega
  have hr : readAt (guid ++ (List.replicate 8 0 ++ rest)) 0 24 = guid ++ List.replicate 8 0 := by
    have : guid ++ (List.replicate 8 0 ++ rest) = (guid ++ List.replicate 8 0) ++ rest := by simp
    rw [this]
    simp only [readAt, List.drop_zero]
    rw [List.take_left' (by simp [hg])]
  have ht : (guid ++ List.replicate 8 (0 : UInt8)).take 16 = guid := List.take_left' hg
  have hu : unpackAt 8 (guid ++ List.replicate 8 0) 16 = .ok 0 := by
    have := unpackAt_append (n := 0) (k := 8) guid [] hg (by decide)
    rwa [List.append_nil] at this
  unfold asfRead
  rw [if_neg hl]
  dsimp only
  rw [hr, hu, ok_bind, ht, if_neg (by rintro ⟨_, _, h⟩; simp [hg] at h), if_neg (fun h => hd h.2)]
  exact ⟨_, rfl, rfl, rfl, rfl⟩

/-- C67 is false for files that start with an object that claims to have no bytes: reading an SRS like that
never ends, with any number of steps. -/
theorem wmv_load_hangs {guid : Bytes} (hg : guid.length = 16) (hd : guid ≠ dataGuid) (hs : guid ∉ srsGuids) (rest : Bytes) (steps : Nat)
    (s : WmvLoaded) : wmvLoadLoop (guid ++ (List.replicate 8 0 ++ rest)) steps 0 s = .error .fuel := by
  have hs' : guid ≠ asfSrsFile ∧ guid ≠ asfSrsTrack ∧ guid ≠ asfSrsPadding := by
    simp only [srsGuids, List.mem_cons, List.not_mem_nil, or_false, not_or] at hs
    exact hs
  obtain ⟨o, h1, rfl, h3, h4⟩ := asfRead_zero (mode := .srs) (rest := rest) hg hd
  induction steps with
  | zero => rfl
  | succ n ih =>
    rw [wmvLoadLoop, h1, ok_bind]
    dsimp only
    rw [if_neg hs'.1, if_neg hs'.2.1, if_neg hs'.2.2]
    have : asfSkip o = .ok 0 := by unfold asfSkip; rw [h3, h4]; rfl
    rw [this, ok_bind, ih]

/-- The same for the search in a main file. -/
theorem wmv_find_hangs {guid : Bytes} (hg : guid.length = 16) (hd : guid ≠ dataGuid) (rest : Bytes) (steps : Nat)
    (s : Tracks) : wmvFindLoop (guid ++ (List.replicate 8 0 ++ rest)) steps 0 s = .error .fuel := by
  obtain ⟨o, h1, rfl, h3, h4⟩ := asfRead_zero (mode := .wmv) (rest := rest) hg hd
  induction steps with
  | zero => rfl
  | succ n ih =>
    rw [wmvFindLoop, h1, ok_bind]
    dsimp only
    rw [if_neg (show ¬ o.guid = asfDataGuid from hd)]
    have : asfSkip o = .ok 0 := by unfold asfSkip; rw [h3, h4]; rfl
    rw [this, ok_bind, ih]

example : ∃ guid : Bytes, guid.length = 16 ∧ guid ≠ dataGuid ∧ guid ∉ srsGuids := ⟨List.replicate 16 1, by decide⟩

/-! ### The reported CRC -/

theorem write_crc {s : WmvRebuild} {b : Bytes} (h : s.crc = crc32 s.out 0) : (s.write b).crc = crc32 (s.write b).out 0 := by
  simp only [WmvRebuild.write, h, crc32_append]

theorem foldlM_inv {α σ : Type} {P : σ → Prop} {f : σ → α → Res σ} (h : ∀ s a s', P s → f s a = .ok s' → P s') :
    ∀ {l : List α} {s s' : σ}, P s → l.foldlM f s = .ok s' → P s'
  | [], s, s', hs, e => by simp at e; rw [← e]; exact hs
  | a :: l, s, s', hs, e => by
    rw [List.foldlM_cons, bind_eq_ok] at e
    obtain ⟨m, hm, e⟩ := e
    exact foldlM_inv h (h _ _ _ hs hm) e

theorem wmvRebuildPayload_crc {tracks : Tracks} {s s' : WmvRebuild} {p : AsfPayload} (hs : s.crc = crc32 s.out 0)
    (h : wmvRebuildPayload tracks s p = .ok s') : s'.crc = crc32 s'.out 0 := by
  unfold wmvRebuildPayload at h
  split at h
  · split at h
    · simp at h
    · split at h
      · simp at h
      · dsimp only at h
        injection h with h
        subst h
        exact write_crc (write_crc hs)
  · simp at h

theorem wmvRebuildPadding_crc {padding : Option Bytes} {s : WmvRebuild} {n : Nat} (hs : s.crc = crc32 s.out 0) :
    (wmvRebuildPadding padding s n).crc = crc32 (wmvRebuildPadding padding s n).out 0 := by
  unfold wmvRebuildPadding
  split <;> exact write_crc hs

theorem wmvRebuildLoop_crc {file : Bytes} {psize : Int} {fin : Nat} {tracks : Tracks} {padding : Option Bytes} : ∀ {n off : Nat}
    {s r : WmvRebuild × Bool × Nat}, s.1.crc = crc32 s.1.out 0 →
    wmvRebuildLoop file psize fin tracks padding n off s = .ok r → r.1.crc = crc32 r.1.out 0 := by
  intro n
  induction n with
  | zero => intro off s r hs h; rw [wmvRebuildLoop] at h; injection h with h; rw [← h]; exact hs
  | succ n ih =>
    intro off s r hs h
    obtain ⟨s, d, e⟩ := s
    rw [wmvRebuildLoop] at h
    simp only [bind_eq_ok] at h
    obtain ⟨b, _, p, hp, s', hf, h⟩ := h
    refine ih ?_ h
    exact wmvRebuildPadding_crc (foldlM_inv (P := fun s => s.crc = crc32 s.out 0) (fun _ _ _ => wmvRebuildPayload_crc) (write_crc hs) hf)

theorem wmvRebuildObjects_crc {file : Bytes} {tracks : Tracks} {padding : Option Bytes} : ∀ {fuel pos : Nat} {s r : WmvRebuild},
    s.crc = crc32 s.out 0 → wmvRebuildObjects file tracks padding fuel pos s = .ok r → r.crc = crc32 r.out 0 := by
  intro fuel
  induction fuel with
  | zero => intro pos s r _ h; simp [wmvRebuildObjects] at h
  | succ fuel ih =>
    intro pos s r hs h
    rw [wmvRebuildObjects, bind_eq_ok] at h
    obtain ⟨x, hx, h⟩ := h
    cases x with
    | none => simp only [pure_eq_ok, Except.ok.injEq] at h; rw [← h]; exact hs
    | some o =>
      dsimp only at h
      split at h
      · rw [bind_eq_ok] at h
        obtain ⟨q, _, h⟩ := h
        exact ih hs h
      · split at h
        · simp only [bind_eq_ok] at h
          obtain ⟨y, hy, z, hz, q, _, h⟩ := h
          exact ih (wmvRebuildLoop_crc (s := (s.write o.raw, false, _)) (write_crc hs) hz) h
        · rw [bind_eq_ok] at h
          obtain ⟨y, _, h⟩ := h
          exact ih (write_crc (write_crc hs)) h

/-- C67: whatever the SRS and the files, the CRC reported for a rebuilt WMV sample is that of the bytes
written. -/
theorem wmv_reported_crc {srs : Bytes} {padding : Option Bytes} {tracks : Tracks} {files : TrackFiles} {out : Bytes} {crc : BitVec 32}
    (h : wmvRebuild srs padding tracks files = .ok (out, crc)) : crc = crc32 out 0 := by
  unfold wmvRebuild at h
  simp only [bind_eq_ok, pure_eq_ok, Except.ok.injEq, Prod.mk.injEq] at h
  obtain ⟨s, hs, rfl, rfl⟩ := h
  exact wmvRebuildObjects_crc (by simp [crc32]) hs

end Rescene.Props
