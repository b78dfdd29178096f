import Verif.Lemmas.StreamSrs
import Verif.Props.Crc
/-
C35, C36, C42: samples handled as one blob.
-/
namespace Rescene.Props
open Spec

/-! ### C42: reading an SRS -/

/-- The file begins with a marker that is accepted and a size field of zero. -/
def ZeroFirstBlock (file : Bytes) : Prop :=
  ∃ m rest, (m = mSTRM ∨ m = mM2TS) ∧ file = m ++ ([0, 0, 0, 0] ++ rest)

theorem streamStep_zero {file : Bytes} (h : ZeroFirstBlock file) :
    ∃ b, streamStep file 0 = .ok (some (b, 0)) := by
  obtain ⟨m, rest, hm, rfl⟩ := h
  have h4 : m.length = 4 := by rcases hm with rfl | rfl <;> rfl
  have r1 : readAt (m ++ ([0, 0, 0, 0] ++ rest)) 0 4 = m := readAt_append [] m _ rfl h4
  have r2 : readAt (m ++ ([0, 0, 0, 0] ++ rest)) (0 + 4) 4 = [0, 0, 0, 0] :=
    readAt_append m [0, 0, 0, 0] rest (by omega) rfl
  refine ⟨⟨m, 0, 0⟩, ?_⟩
  unfold streamStep
  rw [if_pos (by simp; omega), if_neg (by simp [h4]; omega)]
  simp only
  rw [r1, r2, if_neg (by rcases hm with rfl | rfl <;> simp)]
  rw [show unpackAt 4 [0, 0, 0, 0] 0 = .ok 0 from rfl, ok_bind, if_neg (by omega), if_neg (by omega)]
  rfl

/-- C42 is false: on such a file (8 bytes are enough) the reader makes no progress. -/
theorem srs_load_hangs {file : Bytes} (h : ZeroFirstBlock file) (fuel : Nat) :
    streamBlocks file fuel 0 = .error .fuel := by
  obtain ⟨b, hb⟩ := streamStep_zero h
  induction fuel with
  | zero => rfl
  | succ n ih => rw [streamBlocks, hb, ok_bind]; simp only [ih, error_bind]

/-- Every other step makes progress. -/
theorem streamStep_progress {file : Bytes} {pos pos' : Nat} {b : SBlock}
    (h : streamStep file pos = .ok (some (b, pos'))) (hz : ¬ ZeroFirstBlock file) :
    pos < pos' ∧ pos' ≤ file.length ∧ b.start = pos ∧ pos' = pos + b.size := by
  unfold streamStep at h
  split at h
  · rename_i h1
    split at h
    · simp at h
    · rename_i h2
      simp only at h
      split at h
      · simp at h
      · rename_i h3
        rw [bind_eq_ok] at h
        obtain ⟨size, hs, h⟩ := h
        split at h
        · simp at h
        · rename_i h4
          split at h
          · simp at h
          · rename_i h5
            simp only [pure_eq_ok, Except.ok.injEq, Option.some.injEq, Prod.mk.injEq] at h
            obtain ⟨rfl, rfl⟩ := h
            refine ⟨?_, by omega, rfl, rfl⟩
            apply Decidable.byContradiction
            intro hlt
            have hs0 : size = 0 := by omega
            have hp0 : pos = 0 := by
              apply Decidable.byContradiction; intro h; exact h4 ⟨hs0, h⟩
            subst hp0
            rw [hs0] at hs
            apply hz
            refine ⟨readAt file 0 4, file.drop 8, ?_, ?_⟩
            · apply Decidable.byContradiction
              intro h
              exact h3 ⟨rfl, fun h' => h (Or.inl h'), fun h' => h (Or.inr h')⟩
            · have hle : readAt file (0 + 4) 4 = [0, 0, 0, 0] := by
                rw [unpackAt_ok_iff] at hs
                obtain ⟨_, hs⟩ := hs
                have hl : (readAt file (0 + 4) 4).length = 4 := by rw [readAt_length]; omega
                have := le_ofLe (readAt file (0 + 4) 4)
                rw [hl] at this
                rw [← this]
                have e : slice (readAt file (0 + 4) 4) 0 (0 + 4) = readAt file (0 + 4) 4 := by
                  simp only [slice, Nat.zero_add, List.drop_zero]
                  rw [List.take_of_length_le (by simp only [Nat.zero_add] at hl; omega)]
                rw [e] at hs
                rw [← hs]
                decide
              rw [← hle]
              have e1 : file = file.take 4 ++ file.drop 4 := (List.take_append_drop ..).symm
              have e2 : file.drop 4 = (file.drop 4).take 4 ++ file.drop 8 := by
                conv => lhs; rw [← List.take_append_drop 4 (file.drop 4)]
                rw [List.drop_drop]
              conv => lhs; rw [e1, e2]
              rfl
  · simp at h

/-- C42: on every other file, of any contents, the reader returns, after at most one step
per byte: with the blocks or with an error. -/
theorem srs_load_terminates_partial {file : Bytes} (hz : ¬ ZeroFirstBlock file) :
    streamBlocks file (file.length + 1) 0 ≠ .error .fuel := by
  have key : ∀ fuel pos, file.length + 1 - pos ≤ fuel → pos ≤ file.length →
      streamBlocks file fuel pos ≠ .error .fuel := by
    intro fuel
    induction fuel with
    | zero => intro pos h1 h2; omega
    | succ fuel ih =>
      intro pos h1 h2
      rw [streamBlocks]
      cases hs : streamStep file pos with
      | error e =>
        rw [error_bind]
        intro he
        simp only [Except.error.injEq] at he
        subst he
        unfold streamStep at hs
        split at hs
        · split at hs
          · simp at hs
          · simp only at hs
            split at hs
            · simp at hs
            · unfold unpackAt at hs
              split at hs
              · rw [ok_bind] at hs
                split at hs
                · simp at hs
                · split at hs <;> simp at hs
              · simp at hs
        · simp at hs
      | ok o =>
        rw [ok_bind]
        cases o with
        | none => simp
        | some p =>
          obtain ⟨b, pos'⟩ := p
          obtain ⟨g1, g2, _⟩ := streamStep_progress hs hz
          have := ih pos' (by omega) g2
          simp only
          cases hr : streamBlocks file fuel pos' with
          | error e => rw [hr] at this; rw [error_bind]; exact this
          | ok l => simp
  exact key _ 0 (by omega) (by omega)

/-- C42: so the reader returns exactly on the files that do not begin that way. -/
theorem srs_load_returns_iff (file : Bytes) :
    (∃ fuel, streamBlocks file fuel 0 ≠ .error .fuel) ↔ ¬ ZeroFirstBlock file :=
  ⟨fun ⟨fuel, h⟩ hz => h (srs_load_hangs hz fuel), fun h => ⟨_, srs_load_terminates_partial h⟩⟩

/-- C42: the blocks that are returned tile the file. -/
theorem srs_blocks_tile {file : Bytes} (hz : ¬ ZeroFirstBlock file) (fuel : Nat) :
    ∀ (pos : Nat) (l : List SBlock), pos ≤ file.length → streamBlocks file fuel pos = .ok l →
      (l.map (·.size)).sum = file.length - pos ∧
      ∀ i (h : i < l.length), (l[i]).start = pos + ((l.take i).map (·.size)).sum := by
  induction fuel with
  | zero => intro pos l _ h; simp [streamBlocks] at h
  | succ fuel ih =>
    intro pos l hp h
    rw [streamBlocks, bind_eq_ok] at h
    obtain ⟨o, ho, h⟩ := h
    cases o with
    | none =>
      simp at h; subst h
      have : ¬ pos < file.length := by
        intro hlt
        unfold streamStep at ho
        rw [if_pos hlt] at ho
        split at ho
        · simp at ho
        · simp only at ho
          split at ho
          · simp at ho
          · rw [bind_eq_ok] at ho
            obtain ⟨_, _, ho⟩ := ho
            split at ho
            · simp at ho
            · split at ho <;> simp at ho
      refine ⟨?_, by simp⟩
      simp only [List.map_nil, List.sum_nil]; omega
    | some p =>
      obtain ⟨b, pos'⟩ := p
      obtain ⟨g1, g2, g3, g4⟩ := streamStep_progress ho hz
      simp only [bind_eq_ok, pure_eq_ok, Except.ok.injEq] at h
      obtain ⟨l', hl', rfl⟩ := h
      obtain ⟨k1, k2⟩ := ih pos' l' g2 hl'
      refine ⟨by simp only [List.map_cons, List.sum_cons]; omega, ?_⟩
      intro i hi
      cases i with
      | zero => simp [g3]
      | succ i =>
        have := k2 i (by simp at hi; omega)
        simp only [List.getElem_cons_succ, List.take_succ_cons, List.map_cons, List.sum_cons]
        omega

example : ZeroFirstBlock [0x53, 0x54, 0x52, 0x4D, 0, 0, 0, 0] := ⟨mSTRM, [], Or.inl rfl, rfl⟩
example : ¬ ZeroFirstBlock [0x53, 0x54, 0x52, 0x4D, 8, 0, 0, 0] := by
  rintro ⟨m, rest, rfl | rfl, h⟩ <;> simp [mSTRM, mM2TS] at h

/-! ### C36: searching the signature -/

/-- The search as the program runs it, on a whole main file. -/
def searchSig (sig main : Bytes) : Res (Option Nat) :=
  streamSearch 0x10000 sig (main.length + 2) [] (main.take 0x10000) (main.drop 0x10000) (main.take 0x10000).length

theorem searchSig_spec (sig main : Bytes) (hs : sig ≠ []) (hl : sig.length ≤ 0x10000) :
    ∃ m, searchSig sig main = .ok m ∧ (∀ k, m = some k → FirstAt sig main k) ∧
      (m = none → ∀ k, ¬ OccursAt sig main k) := by
  have := streamSearch_spec (r := 0x10000) (sig := sig) (by omega) hl (main.length + 2) [] []
    (main.take 0x10000) (main.drop 0x10000) (main.take 0x10000).length (by simp) (by simp) (by simp)
    (by
      intro h
      rcases List.take_eq_nil_iff.mp h with h | h
      · omega
      · simp [h])
    (by
      intro h
      have : ¬ main.length ≤ 0x10000 := fun h' => h (List.drop_eq_nil_of_le h')
      simp; omega)
    (by
      intro k _
      have := List.length_pos_iff.mpr hs
      simp; omega)
    (by simp; omega)
  simp only [List.nil_append, List.take_append_drop] at this
  exact this

/-- C36: for every main file and every signature that an SRS can hold, wherever it lies
with respect to the 64 KiB reads: the search returns, the offset it reports is the first
occurrence of the signature ... -/
theorem search_finds_first (sig main : Bytes) (hs : sig ≠ []) (hl : sig.length < 2 ^ 16) (k : Nat) :
    searchSig sig main = .ok (some k) ↔ FirstAt sig main k := by
  obtain ⟨m, h1, h2, h3⟩ := searchSig_spec sig main hs (by omega)
  rw [h1]
  constructor
  · intro h; exact h2 k (by simpa using h)
  · intro hk
    cases m with
    | none => exact absurd hk.1 (h3 rfl k)
    | some j =>
      have hj := h2 j rfl
      have : j = k := Nat.le_antisymm (hj.2 k hk.1) (hk.2 j hj.1)
      rw [this]

/-- C36: ... and "not found" means that it occurs nowhere. -/
theorem search_not_found (sig main : Bytes) (hs : sig ≠ []) (hl : sig.length < 2 ^ 16) :
    searchSig sig main = .ok none ↔ ∀ k, ¬ OccursAt sig main k := by
  obtain ⟨m, h1, h2, h3⟩ := searchSig_spec sig main hs (by omega)
  rw [h1]
  constructor
  · intro h; exact h3 (by simpa using h)
  · intro h
    cases m with
    | none => rfl
    | some j => exact absurd (h2 j rfl).1 (h j)

/-- C36: the only signature for which "not found" is wrong is the empty one in an empty file. -/
theorem search_empty (main : Bytes) :
    searchSig [] main = .ok (if main = [] then none else some 0) := by
  cases main with
  | nil => rfl
  | cons a l =>
    unfold searchSig
    rw [show (a :: l).length + 2 = (l.length + 2) + 1 from rfl, streamSearch]
    simp [bfind]

/-- C36: the search of the program (`stream_find_sample_streams`) stores that offset in
track 1 and leaves the other tracks alone. -/
theorem find_sets_offset {tracks : Tracks} {t : TrackData} {main : Bytes} (ht : tracks.get 1 = .ok t)
    (hs : t.sig ≠ []) (hl : t.sig.length < 2 ^ 16) :
    (∀ k, FirstAt t.sig main k → streamFind tracks main = .ok (tracks.put 1
      { t with checkBytes := t.sig, matchOffset := k, matchLength := t.sig.length })) ∧
    ((∀ k, ¬ OccursAt t.sig main k) → streamFind tracks main = .ok (tracks.put 1 { t with matchOffset := -1 })) := by
  constructor
  · intro k hk
    have h := (search_finds_first t.sig main hs hl k).mpr hk
    unfold searchSig at h
    unfold streamFind
    rw [ht, ok_bind]
    simp only
    rw [h, ok_bind]
    rfl
  · intro hk
    have h := (search_not_found t.sig main hs hl).mpr hk
    unfold searchSig at h
    unfold streamFind
    rw [ht, ok_bind]
    simp only
    rw [h, ok_bind]
    rfl

example : FirstAt [2, 3] [1, 2, 2, 3, 2, 3] 2 := by
  refine ⟨⟨[1, 2], [2, 3], rfl, rfl⟩, ?_⟩
  intro j hj
  apply Decidable.byContradiction
  intro h
  have : j = 0 ∨ j = 1 := by omega
  rw [occursAt_iff] at hj
  rcases this with rfl | rfl <;> simp at hj
example : searchSig [2, 3] [1, 2, 2, 3, 2, 3] = .ok (some 2) := by decide

/-! ### C35: from sample to SRS to sample -/

/-- C35, full statement: a sample that is contained in the main file is rebuilt. -/
def stream_sample_rebuilt : Prop :=
  ∀ (app name : Str) (sample main srs : Bytes) (bigFile ign : Bool),
    srsCreate app name sample bigFile none = .ok srs → sample ≠ [] → (∃ k, OccursAt sample main k) →
    ∃ r, srsReconstruct srs main ign = .ok r ∧ r.good = true ∧ r.file = sample

theorem occurs_readAt {sample main : Bytes} {k n : Nat} (h : OccursAt sample main k) (hn : n ≤ sample.length) :
    readAt main k n = sample.take n := by
  obtain ⟨pre, post, rfl, rfl⟩ := h
  have e : pre ++ sample ++ post = pre ++ (sample.take n ++ (sample.drop n ++ post)) := by
    rw [List.append_assoc]; congr 1
    rw [← List.append_assoc, List.take_append_drop]
  rw [e]
  exact readAt_append pre (sample.take n) _ rfl (by rw [List.length_take]; omega)

/-- C35: every non-empty sample is rebuilt byte for byte, reported as good, from every main
file in which it starts at the first occurrence of its first 256 bytes; with or without a
stored offset (`-c`, same main file), and with or without ignoring it (`-m`). -/
theorem stream_sample_rebuilt_partial {app name : Str} {sample main srs : Bytes} {bigFile ign : Bool}
    {check : Option Bytes} (h : srsCreate app name sample bigFile check = .ok srs) (hne : sample ≠ [])
    (hc : check = none ∨ check = some main) {k : Nat} (hk : FirstAt (sample.take 256) main k)
    (hs : OccursAt sample main k) :
    srsReconstruct srs main ign = .ok ⟨sample, sample.length, (crc32 sample 0).toNat, true⟩ := by
  have hsig : sample.take 256 ≠ [] := by
    intro h'
    rcases List.take_eq_nil_iff.mp h' with h' | h'
    · omega
    · exact hne h'
  have hsl : (sample.take 256).length < 2 ^ 16 := by simp; omega
  unfold srsCreate at h
  split at h
  · simp at h
  rename_i hbig
  unfold streamProfile at h
  rw [calculate_crc32_correct, ok_bind] at h
  simp only [pure_eq_ok, ok_bind] at h
  -- the track that is stored
  have htr : ∃ t : TrackData, t.number = 1 ∧ t.dataLength = sample.length ∧ t.sig = sample.take 256 ∧ t.flags = 0 ∧
      (t.matchOffset = 0 ∨ t.matchOffset = k) ∧
      streamCreateSrs app name sample.length (crc32 sample 0).toNat [(1, t)] bigFile = .ok srs := by
    rcases hc with rfl | rfl
    · simp only [ok_bind] at h
      exact ⟨_, rfl, rfl, rfl, rfl, Or.inl rfl, h⟩
    · simp only at h
      have := (find_sets_offset (tracks := [(1, { number := 1, dataLength := sample.length, sig := sample.take 256 })])
        (t := { number := 1, dataLength := sample.length, sig := sample.take 256 }) (main := main) rfl hsig hsl).1 k hk
      rw [this, ok_bind] at h
      have hk1 : ((k : Int) == -1) = false := by rw [beq_eq_false_iff_ne]; omega
      simp only [Tracks.put, if_true, List.any_cons, List.any_nil, hk1, Bool.or_false, Bool.false_eq_true, if_false,
        List.filter_cons, List.filter_nil, ok_bind, pure_eq_ok] at h
      rw [if_pos (by simpa using hsig)] at h
      exact ⟨_, rfl, rfl, rfl, rfl, Or.inr rfl, h⟩
  obtain ⟨t, hnum, hdl, hts, hfl, hoff, hcreate⟩ := htr
  have hcrc : (crc32 sample 0).toNat % 2 ^ 32 = (crc32 sample 0).toNat := Nat.mod_eq_of_lt (crc32 sample 0).isLt
  have hload := load_created hcreate (by simp [hnum, hfl]) (by simp)
  rw [hcrc] at hload
  simp only [List.map_cons, List.map_nil] at hload
  unfold srsReconstruct
  rw [hload, ok_bind]
  simp only
  -- after the optional search, the offset is right
  have hfind : ∃ t' : TrackData, t'.dataLength = sample.length ∧ t'.sig = sample.take 256 ∧ t'.matchOffset = k ∧
      (if ign = true ∨ ([(1, readTrack bigFile t)] : Tracks).any (fun t => t.2.matchOffset == 0) = true then do
        let tr ← streamFind [(1, readTrack bigFile t)] main
        if tr.any (fun t => t.2.matchOffset == -1) then throw .other
        else return tr
      else .ok [(1, readTrack bigFile t)] : Res Tracks) = .ok [(1, t')] := by
    split
    · have := (find_sets_offset (tracks := [(1, readTrack bigFile t)]) (t := readTrack bigFile t) (main := main) rfl
        (by simpa [readTrack, hts] using hsig) (by simpa [readTrack, hts] using hsl)).1 k
        (by simpa [readTrack, hts] using hk)
      rw [this, ok_bind]
      have hk1 : ((k : Int) == -1) = false := by rw [beq_eq_false_iff_ne]; omega
      simp only [Tracks.put, if_true, List.any_cons, List.any_nil, hk1, Bool.or_false, Bool.false_eq_true, if_false,
        pure_eq_ok]
      exact ⟨_, by simp [readTrack, hdl], by simp [readTrack, hts], rfl, rfl⟩
    · rename_i hcond
      refine ⟨readTrack bigFile t, by simp [readTrack, hdl], by simp [readTrack, hts], ?_, rfl⟩
      rcases hoff with h0 | h0
      · exfalso; apply hcond; right; simp [readTrack, h0]
      · simp [readTrack, h0]
  obtain ⟨t', hdl', hts', hoff', hres⟩ := hfind
  rw [hres, ok_bind]
  have hex : streamExtract [(1, t')] main = .ok sample := by
    unfold streamExtract
    rw [show Tracks.get [(1, t')] 1 = .ok t' from rfl, ok_bind, hoff', if_neg (by omega)]
    simp only
    rw [hts', hdl', Int.toNat_natCast]
    rw [occurs_readAt hk.1 (Nat.le_refl _), List.take_length, if_neg]
    · rw [occurs_readAt hs (Nat.le_refl _), List.take_length]; rfl
    · simp
  rw [hex, ok_bind]
  simp [hdl', streamRebuild]

theorem get_mem {tracks : Tracks} {n : Nat} {t : TrackData} (h : tracks.get n = .ok t) : (n, t) ∈ tracks := by
  unfold Tracks.get at h
  split at h
  · rename_i k x hf
    simp only [Except.ok.injEq] at h
    subst h
    have h1 := List.find?_some hf
    have h2 := List.mem_of_find?_eq_some hf
    simp at h1
    rwa [h1] at h2
  · simp at h

theorem get_put (tracks : Tracks) (n : Nat) (t : TrackData) : (tracks.put n t).get n = .ok t := by
  induction tracks with
  | nil => simp [Tracks.put, Tracks.get]
  | cons p l ih =>
    obtain ⟨k, x⟩ := p
    rw [Tracks.put]
    split
    · rename_i hk; subst hk; simp [Tracks.get]
    · rename_i hk
      unfold Tracks.get
      rw [List.find?_cons]
      simp only [beq_eq_false_iff_ne.mpr hk]
      exact ih

/-- C35: what is reported as good has the recorded CRC, and is a piece of the main file of
the length recorded for track 1 (for any SRS file, also one not made by this program). -/
theorem srs_result_sound {srs main : Bytes} {ign : Bool} {r : SrsResult}
    (h : srsReconstruct srs main ign = .ok r) :
    (r.good = true ↔ (crc32 r.file 0).toNat = r.crc) ∧
    ∃ f tracks t k, streamLoadSrs srs = .ok (f, tracks) ∧ f.crc = r.crc ∧ f.size = r.size ∧
      tracks.get 1 = .ok t ∧ OccursAt r.file main k ∧
      (t.sig ≠ [] → r.file.length = t.dataLength ∧ OccursAt t.sig main k) := by
  unfold srsReconstruct at h
  rw [bind_eq_ok] at h
  obtain ⟨⟨f, tracks⟩, hl, h⟩ := h
  simp only [bind_eq_ok] at h
  obtain ⟨tracks', htr, data, hd, h⟩ := h
  split at h
  · simp at h
  rename_i hany
  simp only [streamRebuild, pure_eq_ok, Except.ok.injEq] at h
  subst h
  refine ⟨by simp, f, tracks, ?_⟩
  -- the search changes only offsets
  have hget : ∃ t t', tracks.get 1 = .ok t ∧ tracks'.get 1 = .ok t' ∧ t'.sig = t.sig ∧ t'.dataLength = t.dataLength := by
    have hg' : ∃ t', tracks'.get 1 = .ok t' := by
      unfold streamExtract at hd
      rw [bind_eq_ok] at hd
      obtain ⟨t', h', _⟩ := hd
      exact ⟨t', h'⟩
    obtain ⟨t', ht'⟩ := hg'
    split at htr
    · rw [bind_eq_ok] at htr
      obtain ⟨tr, hfind, htr⟩ := htr
      split at htr
      · simp at htr
      simp only [pure_eq_ok, Except.ok.injEq] at htr
      subst htr
      unfold streamFind at hfind
      rw [bind_eq_ok] at hfind
      obtain ⟨t, ht, hfind⟩ := hfind
      simp only [bind_eq_ok] at hfind
      obtain ⟨m, _, hfind⟩ := hfind
      refine ⟨t, t', ht, ht', ?_⟩
      cases m with
      | none =>
        simp only [pure_eq_ok, Except.ok.injEq] at hfind
        subst hfind
        rw [get_put] at ht'
        simp only [Except.ok.injEq] at ht'
        subst ht'
        exact ⟨rfl, rfl⟩
      | some k =>
        simp only [pure_eq_ok, Except.ok.injEq] at hfind
        subst hfind
        rw [get_put] at ht'
        simp only [Except.ok.injEq] at ht'
        subst ht'
        exact ⟨rfl, rfl⟩
    · simp only [Except.ok.injEq] at htr
      subst htr
      exact ⟨t', t', ht', ht', rfl, rfl⟩
  obtain ⟨t, t', ht, ht', hsig, hdl⟩ := hget
  unfold streamExtract at hd
  rw [ht', ok_bind] at hd
  split at hd
  · simp at hd
  simp only at hd
  split at hd
  · simp at hd
  rename_i hs
  simp only [pure_eq_ok, Except.ok.injEq] at hd
  have hs : readAt main t'.matchOffset.toNat t'.sig.length = t'.sig := Decidable.byContradiction hs
  have piece : ∀ n, t'.matchOffset.toNat ≤ main.length →
      OccursAt (readAt main t'.matchOffset.toNat n) main t'.matchOffset.toNat := by
    intro n hle
    rw [occursAt_iff]
    exact ⟨hle, List.take_prefix ..⟩
  by_cases hle : t'.matchOffset.toNat ≤ main.length
  · refine ⟨t, t'.matchOffset.toNat, hl, rfl, rfl, ht, ?_, ?_⟩
    · subst hd; exact piece _ hle
    · intro hne
      rw [← hsig] at hne ⊢
      constructor
      · have hmem := get_mem ht'
        have hlt : ¬ data.length < t'.dataLength := by
          intro hlt
          apply hany
          rw [List.any_eq_true]
          exact ⟨_, hmem, by simp [hne, hlt]⟩
        have : data.length ≤ t'.dataLength := by
          rw [← hd, readAt_length]; omega
        simp only
        omega
      · have := piece t'.sig.length hle
        rwa [hs] at this
  · have hnil : data = [] := by
      rw [← hd]
      unfold readAt
      rw [List.drop_eq_nil_of_le (by omega), List.take_nil]
    refine ⟨t, 0, hl, rfl, rfl, ht, ?_, ?_⟩
    · subst hnil; exact ⟨[], main, rfl, rfl⟩
    · intro hne
      exfalso
      apply hne
      rw [← hsig, ← hs]
      unfold readAt
      rw [List.drop_eq_nil_of_le (by omega), List.take_nil]

/-- The sample of the counterexample: 256 zero bytes and a one; the main file has one zero
byte more in front. -/
def zerosSample : Bytes := List.replicate 256 0 ++ [1]

set_option maxRecDepth 10000 in
/-- C35 is false in general: the first 256 bytes of the sample may occur earlier in the
main file than the sample; only the first occurrence is tried. -/
theorem stream_sample_repeated_signature : ¬ stream_sample_rebuilt := by
  have key : (match srsCreate (str "app") (str "s.vob") zerosSample false none with
      | .error _ => false
      | .ok srs => match srsReconstruct srs (0 :: zerosSample) false with
        | .error _ => true
        | .ok r => r.good == false) = true := by decide +kernel
  intro h
  cases hc : srsCreate (str "app") (str "s.vob") zerosSample false none with
  | error e => rw [hc] at key; simp at key
  | ok srs =>
    obtain ⟨r, hr, hg, _⟩ := h _ _ zerosSample (0 :: zerosSample) srs false false hc (by simp [zerosSample])
      ⟨1, [0], [], by simp, rfl⟩
    rw [hc] at key
    simp [hr, hg] at key

set_option maxRecDepth 10000 in
example : ∃ srs, srsCreate (str "app") (str "/x/s.vob") [1, 2, 3, 4, 5] false (some [9, 9, 1, 2, 3, 4, 5, 9]) = .ok srs ∧
    srsReconstruct srs [9, 9, 1, 2, 3, 4, 5, 9] false = .ok ⟨[1, 2, 3, 4, 5], 5, 0x470B99F4, true⟩ := by
  refine ⟨_, rfl, ?_⟩
  decide +kernel

end Rescene.Props
