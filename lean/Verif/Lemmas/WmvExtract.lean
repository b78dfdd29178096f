import Verif.Lemmas.WmvFind
import Verif.Lemmas.WmvRebuild
/-
C68: the search in a movie, and the data that is taken out of it.
-/
namespace Rescene
open Spec

/-! ### The search in the whole file -/

theorem findFold_ok {sp : List WmvPiece} {L : List (Nat × WmvPiece)} {ts0 : Tracks} {psize : Nat} (hpos : ∀ x ∈ L, 0 < x.1)
    (hused : ∀ x ∈ L, streamData sp x.2.stream ≠ []) (hkey : ∀ n, streamData sp n ≠ [] → n ∈ trackKeys ts0)
    (hsig : ∀ n, streamData sp n ≠ [] → ∃ A q p k B, StartAt sp L n A q p k B) :
    ∀ {ps : List WmvPacket} {off : Nat} {D : List (Nat × WmvPiece)} {s : Tracks × Bool}, (∀ p ∈ ps, p.Ok psize) →
      L = D ++ placedAll psize off ps → WmvInv sp L ts0 D s.1 → (s.2 = true → AllStarted sp L D) →
      ∃ s' go, packetFold psize (wmvFindPacket psize) ps off s = .ok (s', go) ∧ WmvLocated sp L ts0 s'.1 := by
  intro ps
  induction ps with
  | nil =>
    intro off D s _ hL h1 h2
    refine ⟨s, true, rfl, h1.located fun n A q p k B hst => ?_⟩
    rw [placedAll, List.append_nil] at hL
    exact ⟨B, by rw [← hL]; exact hst.eq⟩
  | cons p ps ih =>
    intro off D s hps hL h1 h2
    rw [placedAll] at hL
    obtain ⟨s', hs', h3, h4⟩ := wmvFindPayloads_ok hpos hused hkey hsig hL h1 h2
    rw [packetFold, wmvFindPacket, asfPacket_sample (hps p List.mem_cons_self)]
    simp only [ok_bind, hs', pure_eq_ok]
    cases hd : s'.2 with
    | true => exact ⟨s', false, rfl, h3.located (h4 hd)⟩
    | false =>
      simp only [Bool.not_false, if_true]
      exact ih (fun q hq => hps q (List.mem_cons_of_mem _ hq)) (hL.trans (by simp)) h3 h4

theorem find_wmv_tops {file : Bytes} (hs : file.length < 2 ^ 63) : ∀ {ts : List WmvTop} {pre post : Bytes} (fuel : Nat) (s : Tracks),
    (∀ t ∈ ts, t.Ok) → file = pre ++ (asfBytes ts ++ post) → file.length < pre.length + fuel →
    ∃ fuel', file.length < (pre ++ asfBytes ts).length + fuel' ∧
      wmvFindLoop file fuel pre.length s = wmvFindLoop file fuel' (pre ++ asfBytes ts).length s := by
  intro ts
  induction ts with
  | nil => intro pre post fuel out _ _ hfu; exact ⟨fuel, by simpa [asfBytes] using hfu, by simp [asfBytes]⟩
  | cons t ts ih =>
    intro pre post fuel s ho hf hfu
    have hfl := (ho t List.mem_cons_self).flat
    have hf' : file = pre ++ (t.flat.bytes ++ (asfBytes ts ++ post)) := by rw [hf, asfBytes_cons, t.flat_bytes, List.append_assoc]
    cases fuel with
    | zero => exact absurd hfu (flat_zero_fuel hfl hf')
    | succ fuel =>
      rw [wmvFindLoop, asfRead_flat hfl hf']
      simp only [ok_bind]
      rw [if_neg (show ¬ (flatObj pre.length t.flat).guid = asfDataGuid from hfl.data),
        asfSkip_flat (post := asfBytes ts ++ post) hfl (by rw [← hf']; exact hs)]
      simp only [ok_bind]
      rw [t.flat_bytes]
      obtain ⟨f', h1, h2⟩ := ih (pre := pre ++ t.bytes) (post := post) fuel s (fun x hx => ho x (List.mem_cons_of_mem _ hx))
        (by rw [hf, asfBytes_cons]; simp) (by
          have := hfl.bytes_length
          rw [t.flat_bytes] at this
          rw [List.length_append]
          omega)
      refine ⟨f', by rw [asfBytes_cons]; simpa using h1, ?_⟩
      rw [h2, asfBytes_cons]
      simp

/-- The places of the payloads of a file. -/
def wmvPlaces (w : WmvFile) : List (Nat × WmvPiece) := placedAll w.psize ((asfBytes w.before).length + 50) w.packets

theorem wmvPlaces_pieces (w : WmvFile) : piecesOf (wmvPlaces w) = w.pieces := placedAll_pieces _ _ _

theorem wmvPlaces_pos {w : WmvFile} (h : w.Ok) : ∀ x ∈ wmvPlaces w, 0 < x.1 := by
  intro x hx
  have := placedAll_bounds h.packets x hx
  omega

theorem data_skip {w : WmvFile} (h : w.Ok) : asfSkip (dataObj (asfBytes w.before).length w) =
    .ok (asfBytes w.before ++ (w.dataHead ++ w.packets.flatMap WmvPacket.bytes)).length := by
  have hs := h.size
  have hdl := dataHead_length h
  have hpl := packets_length h
  simp only [WmvFile.bytes, List.length_append, hdl, hpl] at hs ⊢
  have : (asfBytes w.before).length + (50 + w.packets.length * w.psize) < 2 ^ 63 := by omega
  exact if_pos this

theorem wmvFind_ok {sp : List WmvPiece} {ts0 : Tracks} {w : WmvFile} (h : w.Ok)
    (hused : ∀ x ∈ wmvPlaces w, streamData sp x.2.stream ≠ []) (hkey : ∀ n, streamData sp n ≠ [] → n ∈ trackKeys ts0)
    (hsig : ∀ n, streamData sp n ≠ [] → ∃ A q p k B, StartAt sp (wmvPlaces w) n A q p k B) (hinv : WmvInv sp (wmvPlaces w) ts0 [] ts0) :
    ∃ ts, wmvFind ts0 w.bytes = .ok ts ∧ WmvLocated sp (wmvPlaces w) ts0 ts := by
  have hdl := dataHead_length h
  have hpl := packets_length h
  obtain ⟨f1, h1, h2⟩ := find_wmv_tops (file := w.bytes) h.size (pre := [])
    (post := w.dataHead ++ (w.packets.flatMap WmvPacket.bytes ++ asfBytes w.after)) (w.bytes.length + 1) ts0 h.before rfl (by simp)
  rw [List.nil_append] at h1 h2
  have hlen : w.bytes.length = (asfBytes w.before).length + 50 + w.packets.length * w.psize + (asfBytes w.after).length := by
    simp only [WmvFile.bytes, List.length_append, hdl, hpl]
    omega
  obtain ⟨g, rfl⟩ : ∃ g, f1 = g + 1 := by
    cases f1 with
    | zero => omega
    | succ g => exact ⟨g, rfl⟩
  have hlp := fun s => asfPacketLoop_ok (file := w.bytes) (psize := w.psize) (f := wmvFindPacket w.psize) h.size (ps := w.packets)
    (pre := asfBytes w.before ++ w.dataHead) (post := asfBytes w.after) (s := s) h.packets (by simp [WmvFile.bytes])
  obtain ⟨s', go, hfold, hloc⟩ := findFold_ok (wmvPlaces_pos h) hused hkey hsig (ps := w.packets) (D := []) (s := (ts0, false)) h.packets rfl hinv (by simp)
  refine ⟨s'.1, ?_, hloc⟩
  unfold wmvFind
  rw [show (0 : Nat) = ([] : Bytes).length from rfl, h2, wmvFindLoop, asfRead_data (mode := .wmv) (file := w.bytes) (by decide) h rfl]
  simp only [ok_bind]
  rw [if_pos (show (dataObj (asfBytes w.before).length w).guid = asfDataGuid from rfl),
    show (dataObj (asfBytes w.before).length w).raw = w.dataHead from rfl,
    show (dataObj (asfBytes w.before).length w).size = 50 + w.packets.length * w.psize from rfl, asfPackets_data h]
  simp only [ok_bind]
  rw [← List.length_append, hlp, List.length_append, hdl, hfold]
  simp only [ok_bind]
  rw [data_skip h]
  rfl

/-! ### Taking the data out -/

structure WmvTaken (sp : List WmvPiece) (L : List (Nat × WmvPiece)) (ts : Tracks) (D : List (Nat × WmvPiece)) (s : WmvExtract) : Prop where
  tracks : s.tracks = ts
  waiting : ∀ {n A q p k B}, StartAt sp L n A q p k B → ∀ A', A = D ++ A' → s.files n = none
  found : ∀ {n A q p k B}, StartAt sp L n A q p k B → ∀ B', D = A ++ (q, p) :: B' →
    ∃ f, s.files n = some f ∧ f <+: p.data.drop k ++ streamData (piecesOf B') n ∧
      (f = p.data.drop k ++ streamData (piecesOf B') n ∨ (streamData sp n).length ≤ f.length)
  done : s.done = true → ∀ x ∈ ts, ∃ f, s.files x.1 = some f ∧ x.2.dataLength ≤ f.length

/-- A payload before the start. -/
theorem wmvExtractPayload_before {s : WmvExtract} {prev : Nat} {p : WmvPiece} (hk : p.stream ∈ trackKeys s.tracks)
    (h : ((prev + p.head.length + p.data.length : Nat) : Int) < (s.tracks.getNew p.stream).matchOffset) :
    wmvExtractPayload s prev (asfOf false p) = s := by
  unfold wmvExtractPayload
  simp only [asfOf, Bool.false_eq_true, if_false]
  rw [if_pos (any_key.2 hk), if_neg (by omega)]

/-- A payload from the start on. -/
theorem wmvExtractPayload_from {s : WmvExtract} {prev : Nat} {p : WmvPiece} (hk : p.stream ∈ trackKeys s.tracks)
    (h : (s.tracks.getNew p.stream).matchOffset ≤ ((prev + p.head.length + p.data.length : Nat) : Int)) :
    ∃ s', wmvExtractPayload s prev (asfOf false p) = s' ∧ s'.tracks = s.tracks ∧
      s'.files = s.files.set p.stream (if ((s.files p.stream).getD []).length < (s.tracks.getNew p.stream).dataLength then
        (s.files p.stream).getD [] ++ p.data.drop ((s.tracks.getNew p.stream).matchOffset - (prev + p.head.length : Nat)).toNat
        else (s.files p.stream).getD []) ∧
      (s'.done = true → ∀ x ∈ s.tracks, ∃ f, s'.files x.1 = some f ∧ x.2.dataLength ≤ f.length) := by
  refine ⟨_, rfl, ?_, ?_, ?_⟩
  · unfold wmvExtractPayload
    simp only [asfOf, Bool.false_eq_true, if_false]
    rw [if_pos (any_key.2 hk), if_pos (by omega)]
  · unfold wmvExtractPayload
    simp only [asfOf, Bool.false_eq_true, if_false]
    rw [if_pos (any_key.2 hk), if_pos (by omega)]
    dsimp only
    congr 1
    split
    · split
      · rw [show ((s.tracks.getNew p.stream).matchOffset - ((prev + p.head.length : Nat) : Int)).toNat = 0 by omega, List.drop_zero]
      · rw [Int.natCast_add]
    · rfl
  · unfold wmvExtractPayload
    simp only [asfOf, Bool.false_eq_true, if_false]
    rw [if_pos (any_key.2 hk), if_pos (by omega)]
    dsimp only
    intro hd x hx
    rw [Bool.not_eq_true', List.any_eq_false] at hd
    have := hd x hx
    split at this
    · simp at this
    · rename_i b hb
      refine ⟨b, hb, ?_⟩
      simpa using this

theorem StartAt.unique {sp : List WmvPiece} {L : List (Nat × WmvPiece)} {ts0 ts : Tracks} (hasc : Ascending L) (hloc : WmvLocated sp L ts0 ts)
    {n : Nat} {A : List (Nat × WmvPiece)} {q : Nat} {p : WmvPiece} {k : Nat} {B A' : List (Nat × WmvPiece)} {q' : Nat} {p' : WmvPiece} {k' : Nat}
    {B' : List (Nat × WmvPiece)} (h : StartAt sp L n A q p k B) (h' : StartAt sp L n A' q' p' k' B') :
    A' = A ∧ q' = q ∧ p' = p ∧ k' = k ∧ B' = B := by
  have e1 := (hloc.place h).2.2
  have e2 := (hloc.place h').2.2
  have e := h.eq
  have i1 := h.starts.inside
  have i2 := h'.starts.inside
  rw [h'.eq] at e
  have key : ∀ {A q p B x B'}, L = A ++ (q, p) :: (B ++ x :: B') → q + p.data.length < x.1 := by
    intro A q p B x B' hL
    rw [hL, Ascending, List.pairwise_append] at hasc
    exact (List.pairwise_cons.1 hasc.2.1).1 x (by simp)
  rcases List.append_eq_append_iff.1 e with ⟨C, hA, hR⟩ | ⟨C, hA, hR⟩
  · cases C with
    | nil =>
      simp only [List.nil_append, List.cons.injEq, Prod.mk.injEq] at hR
      obtain ⟨⟨rfl, rfl⟩, rfl⟩ := hR
      exact ⟨by rw [hA]; simp, rfl, rfl, by omega, rfl⟩
    | cons y C =>
      simp only [List.cons_append, List.cons.injEq] at hR
      obtain ⟨rfl, hR⟩ := hR
      have := key (h'.eq.trans (by rw [hR]))
      dsimp only at this
      omega
  · cases C with
    | nil =>
      simp only [List.nil_append, List.cons.injEq, Prod.mk.injEq] at hR
      obtain ⟨⟨rfl, rfl⟩, rfl⟩ := hR
      exact ⟨by rw [hA]; simp, rfl, rfl, by omega, rfl⟩
    | cons y C =>
      simp only [List.cons_append, List.cons.injEq] at hR
      obtain ⟨rfl, hR⟩ := hR
      have := key (h.eq.trans (by rw [hR]))
      dsimp only at this
      omega

theorem WmvTaken.step {sp : List WmvPiece} {L : List (Nat × WmvPiece)} {ts0 ts : Tracks} {D R : List (Nat × WmvPiece)} {s : WmvExtract}
    {prev : Nat} {d : WmvPiece} (hL : L = D ++ (prev + d.head.length, d) :: R) (hasc : Ascending L)
    (hkey : ∀ n, streamData sp n ≠ [] → n ∈ trackKeys ts0)
    (hst : ∃ A q p k B, StartAt sp L d.stream A q p k B) (hloc : WmvLocated sp L ts0 ts) (h : WmvTaken sp L ts D s) :
    WmvTaken sp L ts (D ++ [(prev + d.head.length, d)]) (wmvExtractPayload s prev (asfOf false d)) := by
  obtain ⟨A, q, p, k, B, hst⟩ := hst
  obtain ⟨hx, hx'⟩ : (∀ n A q p k B, StartAt sp L n A q p k B → n ≠ d.stream → ∀ A', A = D ++ [(prev + d.head.length, d)] ++ A' → s.files n = none) ∧
      ∀ n A q p k B, StartAt sp L n A q p k B → n ≠ d.stream → ∀ B', D ++ [(prev + d.head.length, d)] = A ++ (q, p) :: B' →
        ∃ f, s.files n = some f ∧ f <+: p.data.drop k ++ streamData (piecesOf B') n ∧
          (f = p.data.drop k ++ streamData (piecesOf B') n ∨ (streamData sp n).length ≤ f.length) := by
    constructor
    · intro n A q p k B hst hn A' hA
      exact h.waiting hst ((prev + d.head.length, d) :: A') (by rw [hA]; simp)
    · intro n A q p k B hst hn B' hB
      rcases List.eq_nil_or_concat B' with rfl | ⟨B'', y, rfl⟩
      · obtain ⟨rfl, hx⟩ := List.append_inj' hB rfl
        simp only [List.cons.injEq, and_true, Prod.mk.injEq] at hx
        obtain ⟨_, rfl⟩ := hx
        exact absurd hst.starts.stream.symm hn
      · have hB' : D ++ [(prev + d.head.length, d)] = (A ++ (q, p) :: B'') ++ [y] := by simpa using hB
        obtain ⟨hD, hx⟩ := List.append_inj' hB' rfl
        simp only [List.cons.injEq, and_true] at hx
        subst hx
        have hf := h.found hst B'' hD
        rw [List.concat_eq_append, piecesOf_append, streamData_append, show piecesOf [(prev + d.head.length, d)] = [d] from rfl,
          streamData_single, if_neg (fun e => hn e.symm), List.append_nil]
        exact hf
  have hk : d.stream ∈ trackKeys s.tracks := by rw [h.tracks, hloc.keys]; exact hkey _ hst.used
  obtain ⟨hp1, hp2, hp3⟩ := hloc.place hst
  have he := hst.eq
  rw [hL] at he
  have key : ∀ {A q p B x B'}, L = A ++ (q, p) :: (B ++ x :: B') → q + p.data.length < x.1 := by
    intro A q p B x B' hL
    rw [hL, Ascending, List.pairwise_append] at hasc
    exact (List.pairwise_cons.1 hasc.2.1).1 x (by simp)
  -- a payload from the start on
  have hfrom : ∀ f, q + k ≤ prev + d.head.length + d.data.length → ¬ (∃ A', A = D ++ (prev + d.head.length, d) :: A') →
      (if ((s.files d.stream).getD []).length < (streamData sp d.stream).length then
        (s.files d.stream).getD [] ++ d.data.drop (((q + k : Nat) : Int) - (prev + d.head.length : Nat)).toNat
        else (s.files d.stream).getD []) = f →
      (∀ B', D ++ [(prev + d.head.length, d)] = A ++ (q, p) :: B' → f <+: p.data.drop k ++ streamData (piecesOf B') d.stream ∧
        (f = p.data.drop k ++ streamData (piecesOf B') d.stream ∨ (streamData sp d.stream).length ≤ f.length)) →
      WmvTaken sp L ts (D ++ [(prev + d.head.length, d)]) (wmvExtractPayload s prev (asfOf false d)) := by
    intro f hle hnot hf hres
    obtain ⟨s', hs', ht, hfi, hdo⟩ := wmvExtractPayload_from (prev := prev) hk (by rw [h.tracks, hp3]; omega)
    rw [h.tracks, hp2, hp3, hf] at hfi
    rw [hs']
    refine ⟨ht.trans h.tracks, ?_, ?_, fun hd x hx => hdo hd x (by rw [h.tracks]; exact hx)⟩
    · intro n A' q' p' k' B' hst' C hC
      rw [hfi]
      by_cases hn : n = d.stream
      · subst hn
        obtain ⟨rfl, rfl, rfl, rfl, rfl⟩ := hst.unique hasc hloc hst'
        exact absurd ⟨C, by rw [hC]; simp⟩ hnot
      · rw [set_other _ _ hn]
        exact hx n A' q' p' k' B' hst' hn C hC
    · intro n A' q' p' k' B' hst' C hC
      rw [hfi]
      by_cases hn : n = d.stream
      · subst hn
        obtain ⟨rfl, rfl, rfl, rfl, rfl⟩ := hst.unique hasc hloc hst'
        rw [set_same]
        exact ⟨f, rfl, hres C hC⟩
      · rw [set_other _ _ hn]
        exact hx' n A' q' p' k' B' hst' hn C hC
  have hne := hst.used
  have hnel := List.length_pos_iff.2 hne
  have hin := hst.starts.inside
  rcases List.append_eq_append_iff.1 he with ⟨C, hA, hR⟩ | ⟨C, hA, hR⟩
  · cases C with
    | nil =>
      simp only [List.nil_append, List.cons.injEq, Prod.mk.injEq] at hR
      obtain ⟨⟨rfl, rfl⟩, rfl⟩ := hR
      simp only [List.append_nil] at hA
      subst hA
      have hnone := h.waiting hst [] (by simp)
      refine hfrom (d.data.drop k) (by omega) ?_ ?_ ?_
      · rintro ⟨C, hC⟩
        have := congrArg List.length hC
        simp at this
      · rw [hnone]
        simp only [Option.getD_none, List.length_nil, if_pos hnel, List.nil_append]
        congr 1
        omega
      · intro B' hB
        obtain rfl : B' = [] := by
          have := List.append_cancel_left hB
          simp only [List.cons.injEq] at this
          exact this.2.symm
        simp [piecesOf, streamData]
    | cons y C =>
      -- a payload before the start
      simp only [List.cons_append, List.cons.injEq] at hR
      obtain ⟨rfl, hR⟩ := hR
      have hlt := key (hst.eq.trans (by rw [hA]; simp) : L = D ++ (prev + d.head.length, d) :: (C ++ (q, p) :: B))
      dsimp only at hlt
      rw [wmvExtractPayload_before hk (by rw [h.tracks, hp3]; omega)]
      refine ⟨h.tracks, ?_, ?_, h.done⟩
      · intro n A' q' p' k' B' hst' C' hC
        exact h.waiting hst' ((prev + d.head.length, d) :: C') (by rw [hC]; simp)
      · intro n A' q' p' k' B' hst' C' hC
        by_cases hn : n = d.stream
        · subst hn
          obtain ⟨rfl, rfl, rfl, rfl, rfl⟩ := hst.unique hasc hloc hst'
          have h1 := congrArg List.length hC
          have h2 := congrArg List.length hA
          simp at h1 h2
          omega
        · exact hx' n A' q' p' k' B' hst' hn C' hC
  · cases C with
    | nil =>
      simp only [List.nil_append, List.cons.injEq, Prod.mk.injEq] at hR
      obtain ⟨⟨rfl, rfl⟩, rfl⟩ := hR
      simp only [List.append_nil] at hA
      subst hA
      have hnone := h.waiting hst [] (by simp)
      refine hfrom (p.data.drop k) (by omega) ?_ ?_ ?_
      · rintro ⟨C, hC⟩
        have := congrArg List.length hC
        simp at this
      · rw [hnone]
        simp only [Option.getD_none, List.length_nil, if_pos hnel, List.nil_append]
        congr 1
        omega
      · intro B' hB
        obtain rfl : B' = [] := by
          have := List.append_cancel_left hB
          simp only [List.cons.injEq] at this
          exact this.2.symm
        simp [piecesOf, streamData]
    | cons y C =>
      simp only [List.cons_append, List.cons.injEq] at hR
      obtain ⟨rfl, hR⟩ := hR
      have hlt := key (hst.eq.trans (by rw [hR]) : L = A ++ (q, p) :: (C ++ (prev + d.head.length, d) :: R))
      dsimp only at hlt
      obtain ⟨f, hf, hfp, hfl⟩ := h.found hst C hA
      refine hfrom (if f.length < (streamData sp d.stream).length then f ++ d.data else f) (by omega) ?_ ?_ ?_
      · rintro ⟨C', hC⟩
        have h1 := congrArg List.length hC
        have h2 := congrArg List.length hA
        simp at h1 h2
        omega
      · rw [hf]
        simp only [Option.getD_some]
        rw [show (((q + k : Nat) : Int) - (prev + d.head.length : Nat)).toNat = 0 by omega, List.drop_zero]
      · intro B' hB
        obtain rfl : B' = C ++ [(prev + d.head.length, d)] := by
          rw [hA] at hB
          have : A ++ ((q, p) :: (C ++ [(prev + d.head.length, d)])) = A ++ (q, p) :: B' := by simpa using hB
          have := List.append_cancel_left this
          simp only [List.cons.injEq, true_and] at this
          exact this.symm
        rw [piecesOf_append, streamData_append, show piecesOf [(prev + d.head.length, d)] = [d] from rfl, streamData_single, if_pos rfl,
          ← List.append_assoc]
        split
        · rename_i hl
          rcases hfl with rfl | hfl
          · exact ⟨List.prefix_refl _, .inl rfl⟩
          · omega
        · exact ⟨hfp.trans (List.prefix_append _ _), .inr (by omega)⟩

/-- The payloads of a packet. -/
theorem wmvExtractPayloads_ok {sp : List WmvPiece} {L : List (Nat × WmvPiece)} {ts0 ts : Tracks} (hasc : Ascending L)
    (hkey : ∀ n, streamData sp n ≠ [] → n ∈ trackKeys ts0) (hst : ∀ x ∈ L, ∃ A q p k B, StartAt sp L x.2.stream A q p k B)
    (hloc : WmvLocated sp L ts0 ts) : ∀ {ps : List WmvPiece} {prev : Nat} {D R : List (Nat × WmvPiece)} {s : WmvExtract},
      L = D ++ (placed prev ps ++ R) → WmvTaken sp L ts D s →
      WmvTaken sp L ts (D ++ placed prev ps) (wmvExtractPayloads (ps.map (asfOf false)) prev s) := by
  intro ps
  induction ps with
  | nil => intro prev D R s _ h; simpa [placed, wmvExtractPayloads] using h
  | cons p ps ih =>
    intro prev D R s hL h
    have hL' : L = D ++ (prev + p.head.length, p) :: (placed (prev + p.data.length + p.head.length) ps ++ R) := by
      rw [hL]; simp [placed]
    have h1 := h.step hL' hasc hkey (hst (prev + p.head.length, p) (by rw [hL']; simp)) hloc
    have := ih (prev := prev + p.data.length + p.head.length) (R := R) (hL'.trans (by simp)) h1
    rw [List.append_assoc] at this
    exact this

/-- A packet before all starts. -/
theorem wmvExtractPayloads_before {ts : Tracks} {start : Nat} : ∀ {ps : List WmvPiece} {prev : Nat} {s : WmvExtract}, s.tracks = ts →
    (∀ x ∈ placed prev ps, x.2.stream ∈ trackKeys ts ∧ x.1 + x.2.data.length < start ∧ (start : Int) ≤ (ts.getNew x.2.stream).matchOffset) →
    wmvExtractPayloads (ps.map (asfOf false)) prev s = s := by
  intro ps
  induction ps with
  | nil => intro prev s _ _; rfl
  | cons p ps ih =>
    intro prev s ht h
    obtain ⟨h1, h2, h3⟩ := h (prev + p.head.length, p) (by simp [placed])
    dsimp only at h1 h2 h3
    rw [List.map_cons, wmvExtractPayloads, wmvExtractPayload_before (by rw [ht]; exact h1) (by rw [ht]; omega)]
    exact ih (prev := prev + p.data.length + p.head.length) ht fun x hx => h x (by simp [placed, hx])

/-- What was taken is enough. -/
theorem WmvTaken.enough {sp : List WmvPiece} {L : List (Nat × WmvPiece)} {ts0 ts : Tracks} {D R : List (Nat × WmvPiece)} {s : WmvExtract}
    (h : WmvTaken sp L ts D s) (hL : L = D ++ R) (hloc : WmvLocated sp L ts0 ts) (hkey : ∀ n, streamData sp n ≠ [] → n ∈ trackKeys ts0)
    (hd : R = [] ∨ s.done = true) {n : Nat} (hst : ∃ A q p k B, StartAt sp L n A q p k B) :
    ∃ f, s.files n = some f ∧ streamData sp n <+: f := by
  obtain ⟨A, q, p, k, B, hst⟩ := hst
  have hdat := hst.starts.data
  -- the stream has started
  have hstarted : ∃ B', D = A ++ (q, p) :: B' := by
    rcases hd with rfl | hd
    · exact ⟨B, by rw [← hst.eq, hL]; simp⟩
    · have hm : n ∈ trackKeys ts := by rw [hloc.keys]; exact hkey n hst.used
      obtain ⟨x, hx, rfl⟩ := List.mem_map.1 hm
      obtain ⟨f, hf, _⟩ := h.done hd x hx
      have he := hst.eq
      rw [hL] at he
      rcases List.append_eq_append_iff.1 he with ⟨C, hA, hR⟩ | ⟨C, hA, hR⟩
      · rw [h.waiting hst C hA] at hf
        simp at hf
      · cases C with
        | nil =>
          rw [h.waiting hst [] (by rw [hA]; simp)] at hf
          simp at hf
        | cons y C =>
          simp only [List.cons_append, List.cons.injEq] at hR
          obtain ⟨rfl, hR⟩ := hR
          exact ⟨C, hA⟩
  obtain ⟨B', hB⟩ := hstarted
  obtain ⟨f, hf, hfp, hfl⟩ := h.found hst B' hB
  have hBB : B = B' ++ R := by
    have h1 := hst.eq
    rw [hL, hB] at h1
    have h2 : A ++ ((q, p) :: (B' ++ R)) = A ++ (q, p) :: B := by simpa using h1
    have := List.append_cancel_left h2
    simp only [List.cons.injEq, true_and] at this
    exact this.symm
  have hfp' : f <+: p.data.drop k ++ streamData (piecesOf B) n := by
    rw [hBB, piecesOf_append, streamData_append, ← List.append_assoc]
    exact hfp.trans (List.prefix_append _ _)
  have hlen : (streamData sp n).length ≤ f.length := by
    rcases hd with rfl | hd
    · rcases hfl with rfl | hfl
      · rw [hBB, List.append_nil] at hdat
        exact hdat.length_le
      · exact hfl
    · have hm : n ∈ trackKeys ts := by rw [hloc.keys]; exact hkey n hst.used
      obtain ⟨x, hx, rfl⟩ := List.mem_map.1 hm
      obtain ⟨f', hf', hl⟩ := h.done hd x hx
      rw [hf] at hf'
      cases hf'
      have := (hloc.place hst).2.1
      rw [getNew_of_mem hloc.distinct hx] at this
      dsimp only at this
      omega
  exact ⟨f, hf, List.prefix_of_prefix_length_le hdat hfp' hlen⟩

theorem foldl_min_le : ∀ (ts : Tracks) (m : Nat),
    ts.foldl (fun m t => if t.2.matchOffset > 0 then min t.2.matchOffset.toNat m else m) m ≤ m ∧
    ∀ x ∈ ts, x.2.matchOffset > 0 →
      ts.foldl (fun m t => if t.2.matchOffset > 0 then min t.2.matchOffset.toNat m else m) m ≤ x.2.matchOffset.toNat := by
  intro ts
  induction ts with
  | nil => intro m; simp
  | cons t ts ih =>
    intro m
    rw [List.foldl_cons]
    obtain ⟨h1, h2⟩ := ih (if t.2.matchOffset > 0 then min t.2.matchOffset.toNat m else m)
    refine ⟨Nat.le_trans h1 ?_, ?_⟩
    · split <;> omega
    · intro x hx hp
      rcases List.mem_cons.1 hx with rfl | hx
      · rw [if_pos hp] at h1 ⊢
        exact Nat.le_trans h1 (by omega)
      · exact h2 x hx hp

/-- The packets of the movie. -/
theorem wmvExtractLoop_ok {sp : List WmvPiece} {L : List (Nat × WmvPiece)} {ts0 ts : Tracks} {psize start : Nat} {file : Bytes} (hasc : Ascending L)
    (hkey : ∀ n, streamData sp n ≠ [] → n ∈ trackKeys ts0) (hst : ∀ x ∈ L, ∃ A q p k B, StartAt sp L x.2.stream A q p k B)
    (hloc : WmvLocated sp L ts0 ts) (hstart : ∀ x ∈ L, (start : Int) ≤ (ts.getNew x.2.stream).matchOffset) (hfl : file.length < 2 ^ 63) :
    ∀ {ps : List WmvPacket} {pre post : Bytes} {D : List (Nat × WmvPiece)} {s : WmvExtract}, (∀ p ∈ ps, p.Ok psize) →
      file = pre ++ (ps.flatMap WmvPacket.bytes ++ post) → L = D ++ placedAll psize pre.length ps → WmvTaken sp L ts D s →
      ∃ s' D' R, wmvExtractLoop file psize start ps.length pre.length s = .ok s' ∧ L = D' ++ R ∧ WmvTaken sp L ts D' s' ∧ (R = [] ∨ s'.done = true) := by
  intro ps
  induction ps with
  | nil => intro pre post D s _ _ hL h; exact ⟨s, D, [], rfl, by simpa [placedAll] using hL, h, .inl rfl⟩
  | cons p ps ih =>
    intro pre post D s hps hf hL h
    have hp := hps p List.mem_cons_self
    have hlen : file.length = pre.length + psize + (ps.flatMap WmvPacket.bytes ++ post).length := by
      rw [hf]; simp [hp.total]; omega
    rw [placedAll] at hL
    have hinv := wmvExtractPayloads_ok hasc hkey hst hloc hL h
    have hih := fun (s : WmvExtract) hs => ih (pre := pre ++ p.bytes) (post := post) (D := D ++ placed pre.length p.pieces) (s := s)
      (fun q hq => hps q (List.mem_cons_of_mem _ hq)) (by rw [hf]; simp) (by rw [List.length_append, hp.total]; simpa using hL) hs
    rw [List.length_append, hp.total] at hih
    rw [List.length_cons, wmvExtractLoop]
    by_cases hsk : (pre.length : Int) + (psize : Int) < start
    · rw [if_pos hsk, Int.toNat_natCast]
      have hsame : wmvExtractPayloads (p.pieces.map (asfOf false)) pre.length s = s := by
        refine wmvExtractPayloads_before (start := start) h.tracks fun x hx => ?_
        have hxL : x ∈ L := by rw [hL]; simp [hx]
        obtain ⟨A, q, p', k, B, hst'⟩ := hst x hxL
        refine ⟨by rw [hloc.keys]; exact hkey _ hst'.used, ?_, hstart x hxL⟩
        have := (packet_bounds hp x hx).2
        omega
      rw [hsame] at hinv
      exact hih s hinv
    · have hpart : asfPart file pre.length (psize : Int) = .ok p.bytes := by
        unfold asfPart
        rw [if_neg (by omega), if_pos (by omega), Int.toNat_natCast, hf, List.flatMap_cons, List.append_assoc,
          readAt_mid pre p.bytes _ rfl hp.total]
      rw [if_neg hsk, hpart]
      simp only [ok_bind]
      rw [if_neg (by rw [hp.total]; simp), asfPacket_sample hp]
      simp only [ok_bind]
      cases hd : (wmvExtractPayloads (p.pieces.map (asfOf false)) pre.length s).done with
      | true =>
        simp only [if_true]
        exact ⟨_, D ++ placed pre.length p.pieces, placedAll psize (pre.length + psize) ps, rfl, by simpa using hL, hinv, .inr hd⟩
      | false =>
        simp only [Bool.false_eq_true, if_false, Int.toNat_natCast]
        exact hih _ hinv

/-- Objects in front of the data. -/
theorem extract_tops {file : Bytes} {start : Nat} (hs : file.length < 2 ^ 63) : ∀ {ts : List WmvTop} {pre post : Bytes} (fuel : Nat) (s : WmvExtract),
    s.done = false → (∀ t ∈ ts, t.Ok) → file = pre ++ (asfBytes ts ++ post) → file.length < pre.length + fuel →
    ∃ fuel', file.length < (pre ++ asfBytes ts).length + fuel' ∧
      wmvExtractObjects file start fuel pre.length s = wmvExtractObjects file start fuel' (pre ++ asfBytes ts).length s := by
  intro ts
  induction ts with
  | nil => intro pre post fuel out _ _ _ hfu; exact ⟨fuel, by simpa [asfBytes] using hfu, by simp [asfBytes]⟩
  | cons t ts ih =>
    intro pre post fuel s hd ho hf hfu
    have hfl := (ho t List.mem_cons_self).flat
    have hf' : file = pre ++ (t.flat.bytes ++ (asfBytes ts ++ post)) := by rw [hf, asfBytes_cons, t.flat_bytes, List.append_assoc]
    cases fuel with
    | zero => exact absurd hfu (flat_zero_fuel hfl hf')
    | succ fuel =>
      rw [wmvExtractObjects, asfRead_flat hfl hf']
      simp only [ok_bind, hd, Bool.false_eq_true, if_false]
      rw [if_neg (show ¬ (flatObj pre.length t.flat).guid = asfDataGuid from hfl.data),
        asfSkip_flat (post := asfBytes ts ++ post) hfl (by rw [← hf']; exact hs)]
      simp only [ok_bind]
      rw [t.flat_bytes]
      obtain ⟨f', h1, h2⟩ := ih (pre := pre ++ t.bytes) (post := post) fuel s hd (fun x hx => ho x (List.mem_cons_of_mem _ hx))
        (by rw [hf, asfBytes_cons]; simp) (by
          have := hfl.bytes_length
          rw [t.flat_bytes] at this
          rw [List.length_append]
          omega)
      refine ⟨f', by rw [asfBytes_cons]; simpa using h1, ?_⟩
      rw [h2, asfBytes_cons]
      simp

/-- Objects behind the data. -/
theorem extract_after {file : Bytes} {start : Nat} (hs : file.length < 2 ^ 63) : ∀ {ts : List WmvTop} {pre : Bytes} (fuel : Nat) (s : WmvExtract),
    (∀ t ∈ ts, t.Ok) → file = pre ++ asfBytes ts → file.length < pre.length + fuel →
    wmvExtractObjects file start fuel pre.length s = .ok s := by
  intro ts
  induction ts with
  | nil =>
    intro pre fuel s _ hf hfu
    simp only [asfBytes, List.flatMap_nil, List.append_nil] at hf
    subst hf
    cases fuel with
    | zero => omega
    | succ fuel =>
      rw [wmvExtractObjects, asfRead_end _ _ (by omega)]
      rfl
  | cons t ts ih =>
    intro pre fuel s ho hf hfu
    have hfl := (ho t List.mem_cons_self).flat
    have hf' : file = pre ++ (t.flat.bytes ++ asfBytes ts) := by rw [hf, asfBytes_cons, t.flat_bytes]
    cases fuel with
    | zero => exact absurd hfu (flat_zero_fuel hfl hf')
    | succ fuel =>
      rw [wmvExtractObjects, asfRead_flat hfl hf']
      simp only [ok_bind]
      cases hd : s.done with
      | true => rfl
      | false =>
        simp only [Bool.false_eq_true, if_false]
        rw [if_neg (show ¬ (flatObj pre.length t.flat).guid = asfDataGuid from hfl.data),
          asfSkip_flat (post := asfBytes ts) hfl (by rw [← hf']; exact hs)]
        simp only [ok_bind]
        rw [t.flat_bytes]
        exact ih (pre := pre ++ t.bytes) fuel s (fun x hx => ho x (List.mem_cons_of_mem _ hx))
          (by rw [hf, asfBytes_cons]; simp) (by
            have := hfl.bytes_length
            rw [t.flat_bytes] at this
            rw [List.length_append]
            omega)

theorem wmvExtract_ok {sp : List WmvPiece} {ts0 ts : Tracks} {w : WmvFile} (h : w.Ok)
    (hkey : ∀ n, streamData sp n ≠ [] → n ∈ trackKeys ts0) (hused : ∀ x ∈ wmvPlaces w, streamData sp x.2.stream ≠ [])
    (hst : ∀ n, streamData sp n ≠ [] → ∃ A q p k B, StartAt sp (wmvPlaces w) n A q p k B) (hloc : WmvLocated sp (wmvPlaces w) ts0 ts) :
    ∃ files, wmvExtract ts w.bytes = .ok (ts, files) ∧ ∀ n, streamData sp n ≠ [] → ∃ f, files n = some f ∧ streamData sp n <+: f := by
  have hdl := dataHead_length h
  have hpl := packets_length h
  have hasc : Ascending (wmvPlaces w) := placedAll_ascending h.packets
  unfold wmvExtract
  generalize hstart : ts.foldl (fun m t => if t.2.matchOffset > 0 then min t.2.matchOffset.toNat m else m) (2 ^ 63) = start
  have hstart' : ∀ x ∈ wmvPlaces w, (start : Int) ≤ (ts.getNew x.2.stream).matchOffset := by
    intro x hx
    obtain ⟨A, q, p, k, B, hs⟩ := hst _ (hused x hx)
    have hm : x.2.stream ∈ trackKeys ts := by rw [hloc.keys]; exact hkey _ hs.used
    obtain ⟨y, hy, hyx⟩ := List.mem_map.1 hm
    have hq := hs.place_pos (wmvPlaces_pos h)
    have ho := (hloc.place hs).2.2
    rw [← hyx, getNew_of_mem hloc.distinct hy] at ho ⊢
    dsimp only at ho ⊢
    have := (foldl_min_le ts (2 ^ 63)).2 y hy (by omega)
    omega
  obtain ⟨f1, h1, h2⟩ := extract_tops (start := start) (file := w.bytes) h.size (pre := [])
    (post := w.dataHead ++ (w.packets.flatMap WmvPacket.bytes ++ asfBytes w.after)) (w.bytes.length + 1) ⟨ts, fun _ => none, false⟩ rfl h.before rfl (by simp)
  rw [List.nil_append] at h1 h2
  have hlen : w.bytes.length = (asfBytes w.before).length + 50 + w.packets.length * w.psize + (asfBytes w.after).length := by
    simp only [WmvFile.bytes, List.length_append, hdl, hpl]
    omega
  obtain ⟨g, rfl⟩ : ∃ g, f1 = g + 1 := by
    cases f1 with
    | zero => omega
    | succ g => exact ⟨g, rfl⟩
  have hinit : WmvTaken sp (wmvPlaces w) ts [] ⟨ts, fun _ => none, false⟩ :=
    ⟨rfl, fun _ _ _ => rfl, fun hs B' hB => by simp at hB, fun hd => by simp at hd⟩
  obtain ⟨s', D', R, hloop, hLD, hT, hend⟩ := wmvExtractLoop_ok (file := w.bytes) hasc hkey (fun x hx => hst _ (hused x hx)) hloc hstart' h.size
    (ps := w.packets) (pre := asfBytes w.before ++ w.dataHead) (post := asfBytes w.after) (D := []) h.packets (by simp [WmvFile.bytes])
    (by rw [List.length_append, hdl]; rfl) hinit
  refine ⟨s'.files, ?_, fun n hn => hT.enough hLD hloc hkey hend (hst n hn)⟩
  dsimp only
  rw [show (0 : Nat) = ([] : Bytes).length from rfl, h2, wmvExtractObjects, asfRead_data (mode := .sample) (file := w.bytes) (by decide) h rfl]
  simp only [ok_bind, Bool.false_eq_true, if_false]
  rw [if_pos (show (dataObj (asfBytes w.before).length w).guid = asfDataGuid from rfl),
    show (dataObj (asfBytes w.before).length w).raw = w.dataHead from rfl,
    show (dataObj (asfBytes w.before).length w).size = 50 + w.packets.length * w.psize from rfl, asfPackets_data h]
  simp only [ok_bind]
  rw [← List.length_append, hloop]
  simp only [ok_bind]
  rw [data_skip h]
  simp only [ok_bind]
  rw [extract_after h.size (ts := w.after) (pre := asfBytes w.before ++ (w.dataHead ++ w.packets.flatMap WmvPacket.bytes)) g s' h.after
    (by simp [WmvFile.bytes]) (by simp only [List.length_append, hdl, hpl]; omega)]
  simp only [ok_bind, hT.tracks]
  rfl

end Rescene
