import Verif.Lemmas.NoFuel
import Verif.Spec.Written
namespace Rescene
open Spec

theorem unpackAt_of_le {k off : Nat} {a : Bytes} (h : off + k ≤ a.length) :
    unpackAt k a off = .ok (ofLe (slice a off (off + k))) :=
  unpackAt_ok_iff.mpr ⟨h, rfl⟩

/-- Fields of a complete block. -/
theorem complete_fields {b : Block} (h : Complete b) :
    unpackAt 1 b.raw 2 = .ok b.btype ∧ unpackAt 2 b.raw 3 = .ok b.flags ∧ unpackAt 2 b.raw 5 = .ok b.hsize := by
  have hp := h.parsed
  have hs := h.size
  have hl := h.len
  split at hp
  · rw [unpackAt_of_le (by omega), unpackAt_of_le (by omega), unpackAt_of_le (by omega)]
    rw [hp]
    exact ⟨rfl, rfl, rfl⟩
  · rw [mkBlock_ok_iff] at hp
    exact ⟨hp.2.1, hp.2.2.1, hp.2.2.2.1⟩

theorem readBody_sized {mode : Mode} {data : Bytes} {pos : Nat} {btype flags hsize : Nat}
    {rr rr' : Option Bool} {b : Block} {cur : Nat} (h7 : 7 < hsize) (hlen : pos + hsize ≤ data.length)
    (h : readBody mode data pos (readAt data pos 7) btype flags hsize rr = .ok (b, cur, rr')) :
    ((hasFlag flags 0x8000 = true ∨ btype = 0x74 ∨ btype = 0x7A) → 11 ≤ hsize) ∧
    ∃ r, isRecoveryHdr btype hsize (readAt data pos 7 ++ readAt data (pos + 7) (hsize - 7)) = .ok r ∧
      (mode = .srr → rr = none → r = false) := by
  unfold readBody at h
  have hbufl : (readAt data pos 7 ++ readAt data (pos + 7) (hsize - 7)).length = hsize := by
    simp [readAt]; omega
  simp only [bind_eq_ok] at h
  obtain ⟨add, hadd, isRec, hrec, ⟨rr2, sk⟩, hstep, _⟩ := h
  constructor
  · intro hs
    rw [if_pos hs] at hadd
    have := (unpackAt_ok_iff.mp hadd).1
    omega
  · refine ⟨isRec, hrec, ?_⟩
    intro hm hrr
    by_cases h71 : btype = 0x71
    · rw [isRecoveryHdr_of_ne (by omega) (by omega)] at hrec
      simpa using hrec.symm
    · cases hi : isRec with
      | false => rfl
      | true =>
        subst hm; subst hrr
        simp [recStep, h71, hi] at hstep

/-- A block the reader returned is complete when none of its data was missing. -/
theorem readBlock_complete {mode : Mode} {data : Bytes} {st st' : RState} {b : Block}
    (h : readBlock mode data st = .ok (some (b, st'))) (hend : ¬ (st.endSeen = true ∧ mode = .rar))
    (hl : b.raw.length = b.hsize + keptLen b) :
    Complete b ∧ (mode = .srr → st.recRemoved = none → b.hsize ≠ 7 → isRecovery b = false) := by
  unfold readBlock at h
  split at h
  · simp at h
  · split at h
    · simp at h
    · rename_i hne h7
      simp only [bind_eq_ok] at h
      obtain ⟨btype, ht, flags, hf, hsize, hs, h⟩ := h
      have hrl : (readAt data st.pos 7).length = 7 := by simp [readAt]; omega
      split at h
      · simp at h
      · rename_i hsz
        split at h
        · rename_i h7'
          split at h
          · rw [bind_eq_ok] at h
            obtain ⟨b', hb', h⟩ := h
            simp only [pure_eq_ok, Except.ok.injEq, Option.some.injEq, Prod.mk.injEq] at h
            obtain ⟨rfl, rfl⟩ := h
            have hb2 := hb'
            rw [mkBlock_ok_iff] at hb'
            obtain ⟨h1, h2, h3, h4, _, h6, hp, add, hadd, _⟩ := hb'
            rw [ht] at h2; rw [hf] at h3; rw [hs] at h4
            simp only [Except.ok.injEq] at h2 h3 h4
            refine ⟨⟨by omega, hl, ?_, ?_⟩, fun _ _ hc => absurd (by omega) hc⟩
            · intro hsd
              rcases hsd with hsd | ⟨hsd, _⟩
              · rw [if_pos hsd] at hadd
                have := (unpackAt_ok_iff.mp hadd).1
                omega
              · omega
            · rw [if_neg (by rintro ⟨_, hc⟩; omega), h6, hp]; exact hb2
          · rename_i h69
            simp only [bind_eq_ok] at h
            obtain ⟨crc, hcrc, add, hadd, h⟩ := h
            simp only [pure_eq_ok, Except.ok.injEq, Option.some.injEq, Prod.mk.injEq] at h
            obtain ⟨rfl, rfl⟩ := h
            have hnf : ¬ hasFlag flags 0x8000 = true := by
              intro hc
              rw [if_pos hc] at hadd
              have := (unpackAt_ok_iff.mp hadd).1
              omega
            rw [if_neg hnf] at hadd
            refine ⟨⟨by simp only; omega, hl, ?_, ?_⟩, fun _ _ hc => absurd h7' hc⟩
            · rintro (hsd | ⟨hsd, _⟩)
              · exact absurd hsd hnf
              · exact absurd h7' hsd
            · rw [if_pos ⟨h7', h69⟩]
              simp only [Except.ok.injEq] at hadd
              simp only [plainBlock, unpackAt_ofLe hcrc, unpackAt_ofLe ht, unpackAt_ofLe hf, unpackAt_ofLe hs, ← hadd]
        · rename_i hn7
          rw [bind_eq_ok] at h
          obtain ⟨⟨b', cur, rr⟩, hb', h⟩ := h
          simp only [pure_eq_ok, Except.ok.injEq, Option.some.injEq, Prod.mk.injEq] at h
          obtain ⟨rfl, rfl⟩ := h
          obtain ⟨h1, h2, h3, h4, h5, h6, h8, h9⟩ := readBody_ok (by omega) (by omega) ht hf hs hb'
          obtain ⟨s1, r, s2, s3⟩ := readBody_sized (by omega) (by omega) hb'
          refine ⟨⟨by omega, hl, ?_, ?_⟩, ?_⟩
          · rw [Sized, h2, h3, h4]; exact fun hc => s1 (hc.imp_right (·.2))
          · rw [if_neg (by omega), h1]; exact h9
          · intro hm hrr _
            obtain ⟨f1, f2, f3, f4⟩ := h5
            have hbufl : (readAt data st.pos 7 ++ readAt data (st.pos + 7) (hsize - 7)).length = hsize := by
              simp [readAt]; omega
            have hbufd : readAt data st.pos 7 ++ readAt data (st.pos + 7) (hsize - 7) = readAt data st.pos hsize := by
              unfold readAt
              rw [← List.drop_drop]
              have : hsize = 7 + (hsize - 7) := by omega
              conv => rhs; rw [this, List.take_add]
            have hraw : b'.raw = readAt data st.pos hsize ++ b'.raw.drop hsize := by
              have : readAt data st.pos hsize = b'.raw.take hsize := by
                rw [f4, h1]; unfold readAt; rw [List.take_take, Nat.min_eq_left (by omega)]
              rw [this, List.take_append_drop]
            rw [isRecoveryHdr_eq (by rw [hbufl]; exact s2) h2 (by rw [h4, hbufl]) (by rw [hbufd]; exact hraw)]
            exact s3 hm hrr

theorem isRecoveryHdr_total {t : Nat} {h : Bytes} : ∃ r, isRecoveryHdr t h.length h = .ok r := by
  unfold isRecoveryHdr
  split
  · exact ⟨_, rfl⟩
  · split
    · rename_i hc
      rw [unpackAt_of_le (by omega)]
      exact ⟨_, rfl⟩
    · exact ⟨_, rfl⟩

/-- The attribute `recovery_blocks_removed` after reading a block of an SRR. -/
def nextRR (rr : Option Bool) (b : Block) : Option Bool :=
  if b.hsize ≠ 7 ∧ b.btype = 0x71 then some (hasFlag b.flags 1) else rr

/-- A complete block is read back from its bytes, at any offset of an SRR. -/
theorem read_complete {b : Block} (hb : Complete b) (pre rest : Bytes) (st : RState)
    (hpos : st.pos = pre.length) (h6a : b.btype = 0x6A → pre ≠ [])
    (hrr : b.hsize ≠ 7 → isRecovery b = true → st.recRemoved ≠ none) :
    readBlock .srr (pre ++ (b.raw ++ rest)) st = .ok (some (at_ b pre.length,
      ⟨pre.length + b.raw.length + skippedLen .srr st.recRemoved b, st.endSeen || b.btype == 0x7B,
        nextRR st.recRemoved b⟩)) := by
  obtain ⟨ht, hf, hs⟩ := complete_fields hb
  have hsz := hb.size
  have hlen := hb.len
  by_cases h7 : b.hsize = 7
  · have hk : keptLen b = 0 := by unfold keptLen; rw [if_pos (Or.inl h7)]
    have hrl : b.raw.length = 7 := by omega
    have hnf : ¬ hasFlag b.flags 0x8000 = true := by
      intro hc
      have := hb.sized (Or.inl hc)
      omega
    have hr : readAt (pre ++ (b.raw ++ rest)) pre.length 7 = b.raw := by
      rw [readAt_append_drop, List.take_append_of_le_length (by omega), List.take_of_length_le (by omega)]
    have hl : (pre ++ (b.raw ++ rest)).length = pre.length + 7 + rest.length := by simp; omega
    have hskip : skippedLen .srr st.recRemoved b = 0 := by unfold skippedLen; rw [if_pos h7]
    have hnr : nextRR st.recRemoved b = st.recRemoved := by unfold nextRR; rw [if_neg (by omega)]
    unfold readBlock
    rw [hpos, if_neg (by omega), if_neg (by omega), hr]
    simp only [ht, hf, hs, ok_bind]
    rw [if_neg (by simp), if_neg (by omega), if_pos h7, hskip, hnr]
    have hp := hb.parsed
    by_cases h69 : b.btype = 0x69
    · rw [if_pos h69]
      rw [if_neg (by rintro ⟨_, hc⟩; exact hc h69)] at hp
      have : mkBlock b.raw pre.length = .ok (at_ b pre.length) := by
        rw [mkBlock_ok_iff] at hp ⊢
        obtain ⟨g1, g2, g3, g4, _, g6, _, g8⟩ := hp
        exact ⟨g1, g2, g3, g4, fun hc => by have := hc.1; simp only [at_] at this; omega, g6, rfl, g8⟩
      rw [this]
      simp [hrl]
    · rw [if_neg h69]
      rw [if_pos ⟨h7, h69⟩] at hp
      rw [unpackAt_of_le (by omega), if_neg hnf]
      simp only [ok_bind, pure_eq_ok, hrl, Nat.add_zero]
      have : (⟨pre.length, ofLe (slice b.raw 0 (0 + 2)), b.btype, b.flags, b.hsize, 0, b.raw, .plain⟩ : Block) =
          at_ b pre.length := by
        rw [at_, hp]
        simp only [plainBlock]
      rw [this]
  · have hp := hb.parsed
    rw [if_neg (by rintro ⟨hc, _⟩; exact h7 hc)] at hp
    obtain ⟨h, hh⟩ : ∃ h, h = b.raw.take b.hsize := ⟨_, rfl⟩
    have hhl : h.length = b.hsize := by rw [hh, List.length_take]; omega
    have hraw : b.raw = h ++ b.raw.drop b.hsize := by rw [hh, List.take_append_drop]
    have hsplit : pre ++ (b.raw ++ rest) = pre ++ (h ++ (b.raw.drop b.hsize ++ rest)) := by
      rw [← List.append_assoc h, ← hraw]
    have htk : ∀ k off n, off + k ≤ b.hsize → unpackAt k b.raw off = .ok n → unpackAt k h off = .ok n := by
      intro k off n hk hn
      rw [hh, unpackAt_take hk (by omega)]; exact hn
    have hmk : ∀ q, (b.btype = 0x6A → q ≠ 0) → mkBlock b.raw q = .ok (at_ b q) := by
      intro q hq
      rw [mkBlock_ok_iff] at hp ⊢
      obtain ⟨g1, g2, g3, g4, _, g6, _, g8⟩ := hp
      exact ⟨g1, g2, g3, g4, fun hc => hq hc.1 hc.2, g6, rfl, g8⟩
    have hmk' := hmk pre.length (fun hc hc2 => h6a hc (List.length_eq_zero_iff.mp hc2))
    obtain ⟨r, hr⟩ := isRecoveryHdr_total (t := b.btype) (h := h)
    have hrec : isRecovery b = r := isRecoveryHdr_eq hr rfl hhl.symm hraw
    have hadd : (if hasFlag b.flags 0x8000 = true ∨ b.btype = 0x74 ∨ b.btype = 0x7A then unpackAt 4 h 7
          else .ok 0 : Res Nat) = .ok (sizeField b) := by
      unfold sizeField
      by_cases hc : hasFlag b.flags 0x8000 = true ∨ b.btype = 0x74 ∨ b.btype = 0x7A
      · rw [if_pos hc, if_pos hc]
        have h11 := hb.sized (hc.imp_right (⟨h7, ·⟩))
        exact htk 4 7 _ (by omega) (unpackAt_of_le (by omega))
      · rw [if_neg hc, if_neg hc]
    have hstep : recStep .srr st.recRemoved b.btype b.flags (sizeField b) r =
        .ok (nextRR st.recRemoved b, if r = true ∧ st.recRemoved = some false then sizeField b else 0) := by
      unfold recStep nextRR
      rw [if_pos rfl]
      by_cases h71 : b.btype = 0x71
      · have hr0 : r = false := by
          rw [isRecoveryHdr_of_ne (by omega) (by omega)] at hr
          simpa using hr.symm
        simp [h71, h7, hr0]
      · have hc : ¬ (b.hsize ≠ 7 ∧ b.btype = 0x71) := fun hc => h71 hc.2
        rw [if_neg h71, if_neg hc]
        cases r with
        | false => simp
        | true =>
          have := hrr h7 hrec
          cases hv : st.recRemoved with
          | none => exact absurd hv this
          | some v => cases v <;> simp
    rw [hsplit, readBlock_hdr hpos (by omega) (htk 1 2 _ (by omega) ht) (htk 2 3 _ (by omega) hf)
      (by rw [hhl]; exact htk 2 5 _ (by omega) hs) (by simp)]
    rw [readBody_at (by omega), hadd]
    simp only [ok_bind, hr, hstep]
    unfold keptLen at hlen
    by_cases c6a : b.btype = 0x6A
    · rw [if_pos c6a]
      rw [if_pos (Or.inr (Or.inl c6a))] at hlen
      have hd : b.raw.drop b.hsize = [] := List.drop_of_length_le (by omega)
      rw [hd, List.append_nil] at hraw
      have hr0 : r = false := by
        rw [isRecoveryHdr_of_ne (by omega) (by omega)] at hr
        simpa using hr.symm
      rw [← hraw, hmk']
      have hskip : skippedLen .srr st.recRemoved b = sizeField b := by
        unfold skippedLen; rw [if_neg h7, if_pos c6a]
      simp [hskip, hr0]
    · rw [if_neg c6a]
      by_cases c74 : b.btype = 0x74
      · rw [if_pos (Or.inr (Or.inr (Or.inl c74)))] at hlen
        have hd : b.raw.drop b.hsize = [] := List.drop_of_length_le (by omega)
        rw [hd, List.append_nil] at hraw
        have hr0 : r = false := by
          rw [isRecoveryHdr_of_ne (by omega) (by omega)] at hr
          simpa using hr.symm
        have hskip : skippedLen .srr st.recRemoved b = 0 := by
          unfold skippedLen; rw [if_neg h7, if_neg c6a, if_pos c74]; simp
        rw [if_neg (by rintro ⟨hc, _⟩; exact hc c74), ← hraw, hmk']
        simp [hskip, hr0]
      · cases r with
        | true =>
          rw [if_pos (Or.inr (Or.inr (Or.inr hrec)))] at hlen
          have hd : b.raw.drop b.hsize = [] := List.drop_of_length_le (by omega)
          rw [hd, List.append_nil] at hraw
          have hskip : skippedLen .srr st.recRemoved b =
              if st.recRemoved = some false then sizeField b else 0 := by
            unfold skippedLen; rw [if_neg h7, if_neg c6a, if_neg c74, if_pos hrec]; simp
          rw [if_neg (by simp), ← hraw, hmk']
          simp [hskip, c74]
        | false =>
          rw [if_neg (by simp [h7, c6a, c74, hrec])] at hlen
          have hskip : skippedLen .srr st.recRemoved b = 0 := by
            unfold skippedLen; rw [if_neg h7, if_neg c6a, if_neg c74, hrec]; simp
          by_cases ha : sizeField b > 0
          · rw [if_pos ⟨c74, rfl, ha⟩]
            have hex : ((b.raw.drop b.hsize ++ rest).drop 0).take (sizeField b) = b.raw.drop b.hsize := by
              rw [List.drop_zero, List.take_append_of_le_length (by simp; omega),
                List.take_of_length_le (by simp; omega)]
            simp only [Bool.false_eq_true, false_and, if_false, hex]
            rw [← hraw, hmk']
            have : pre.length + h.length + 0 + (b.raw.drop b.hsize).length = pre.length + b.raw.length := by
              simp; omega
            rw [Nat.add_zero] at this
            simp only [ok_bind, pure_eq_ok, hskip, Nat.add_zero, this]
          · have hd : b.raw.drop b.hsize = [] := List.drop_of_length_le (by omega)
            rw [hd, List.append_nil] at hraw
            rw [if_neg (by simp [ha]), ← hraw, hmk']
            simp [hskip]

end Rescene
