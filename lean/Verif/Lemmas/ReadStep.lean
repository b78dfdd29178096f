import Verif.Lemmas.ReadBuilt
import Verif.Spec.Layout
namespace Rescene
open Spec

theorem unpackAt_mono {k off n : Nat} {a b : Bytes} (h : unpackAt k a off = .ok n) :
    unpackAt k (a ++ b) off = .ok n := by
  rw [unpackAt_left (unpackAt_ok_iff.mp h).1, h]

theorem unpackAt_ofLe {k off n : Nat} {a : Bytes} (h : unpackAt k a off = .ok n) :
    ofLe (slice a off (off + k)) = n := ((unpackAt_ok_iff.mp h).2).symm

theorem slice_left {i j : Nat} {a b : Bytes} (h : j ≤ a.length) : slice (a ++ b) i j = slice a i j := by
  unfold slice; rw [List.take_append_of_le_length h]

theorem isRecoveryHdr_eq {t : Nat} {buf extra : Bytes} {r : Bool} {b : Block}
    (h : isRecoveryHdr t buf.length buf = .ok r) (ht : b.btype = t) (hs : b.hsize = buf.length)
    (hraw : b.raw = buf ++ extra) : isRecovery b = r := by
  unfold isRecoveryHdr at h
  unfold isRecovery
  rw [ht, hs, hraw]
  split at h
  · simp_all
  · split at h
    · rename_i h1 h2
      rw [bind_eq_ok] at h
      obtain ⟨n, hn, h⟩ := h
      simp only [pure_eq_ok, Except.ok.injEq] at h
      have e := unpackAt_ofLe (unpackAt_mono (b := extra) hn)
      rw [e, slice_left (by omega)]
      simp [h2.1, h2.2, ← h]
    · rename_i h1 h2
      simp only [Except.ok.injEq] at h
      subst h
      have : (t == 0x78) = false := by simpa using h1
      rw [this]
      by_cases h3 : t = 0x7A
      · have : ¬ 34 < buf.length := fun h4 => h2 ⟨h3, h4⟩
        simp [this]
      · simp [h3]

/-- What a successful `readBody` did. -/
theorem readBody_ok {mode : Mode} {data : Bytes} {pos : Nat} {btype flags hsize : Nat}
    {rr rr' : Option Bool} {b : Block} {cur : Nat}
    (h7 : 7 < hsize) (hlen : pos + hsize ≤ data.length)
    (ht : unpackAt 1 (readAt data pos 7) 2 = .ok btype) (hf : unpackAt 2 (readAt data pos 7) 3 = .ok flags)
    (hs : unpackAt 2 (readAt data pos 7) 5 = .ok hsize)
    (h : readBody mode data pos (readAt data pos 7) btype flags hsize rr = .ok (b, cur, rr')) :
    b.pos = pos ∧ b.btype = btype ∧ b.flags = flags ∧ b.hsize = hsize ∧ FoundAt data b ∧
      cur = pos + b.raw.length + skippedLen mode rr b ∧
      rr' = (if mode = .srr ∧ btype = 0x71 then some (hasFlag flags 1) else rr) ∧
      mkBlock b.raw pos = .ok b := by
  obtain ⟨buf, hbuf⟩ : ∃ buf, buf = readAt data pos 7 ++ readAt data (pos + 7) (hsize - 7) := ⟨_, rfl⟩
  have hbufl : buf.length = hsize := by rw [hbuf]; simp [readAt]; omega
  have hbufd : buf = readAt data pos hsize := by
    rw [hbuf]; unfold readAt
    rw [← List.drop_drop]
    have : hsize = 7 + (hsize - 7) := by omega
    conv => rhs; rw [this, List.take_add]
  unfold readBody at h
  rw [← hbuf] at h
  simp only [bind_eq_ok] at h
  obtain ⟨add, hadd, isRec, hrec, ⟨rr2, sk⟩, hstep, h⟩ := h
  have hrr : rr2 = (if mode = .srr ∧ btype = 0x71 then some (hasFlag flags 1) else rr) := by
    unfold recStep at hstep
    split at hstep
    · split at hstep
      · simp_all
      · split at hstep
        · split at hstep <;> simp_all
        · simp_all
    · simp_all
  have hsk0 : isRec = false → sk = 0 := by
    intro h0; subst h0
    unfold recStep at hstep
    split at hstep
    · split at hstep <;> simp_all
    · simp_all
  have htb : ∀ x, unpackAt 1 (buf ++ x) 2 = .ok btype := fun x => by
    rw [hbuf]; exact unpackAt_mono (unpackAt_mono ht)
  have hfb : ∀ x, unpackAt 2 (buf ++ x) 3 = .ok flags := fun x => by
    rw [hbuf]; exact unpackAt_mono (unpackAt_mono hf)
  have hsb : ∀ x, unpackAt 2 (buf ++ x) 5 = .ok hsize := fun x => by
    rw [hbuf]; exact unpackAt_mono (unpackAt_mono hs)
  -- facts about a block made from the buffer
  have key : ∀ (x : Bytes) (b : Block), mkBlock (buf ++ x) pos = .ok b →
      b.pos = pos ∧ b.btype = btype ∧ b.flags = flags ∧ b.hsize = hsize ∧ b.raw = buf ++ x := by
    intro x b hb
    rw [mkBlock_ok_iff] at hb
    obtain ⟨_, h2, h3, h4, _, h6, h7, _⟩ := hb
    rw [htb] at h2; rw [hfb] at h3; rw [hsb] at h4
    simp only [Except.ok.injEq] at h2 h3 h4
    exact ⟨h7, h2.symm, h3.symm, h4.symm, h6⟩
  have keysize : ∀ (x : Bytes) (b : Block), mkBlock (buf ++ x) pos = .ok b → sizeField b = add := by
    intro x b hb
    obtain ⟨_, h2, h3, _, h5⟩ := key x b hb
    unfold sizeField
    rw [h2, h3, h5]
    split at hadd
    · rename_i hc
      rw [if_pos hc]
      exact unpackAt_ofLe (k := 4) (unpackAt_mono hadd)
    · rename_i hc
      rw [if_neg hc]
      simpa using hadd
  have keyrec : ∀ (x : Bytes) (b : Block), mkBlock (buf ++ x) pos = .ok b → isRecovery b = isRec := by
    intro x b hb
    obtain ⟨_, h2, h3, h4, h5⟩ := key x b hb
    exact isRecoveryHdr_eq (by rw [hbufl]; exact hrec) h2 (by rw [h4, hbufl]) h5
  have keyfound : ∀ (x : Bytes) (b : Block), mkBlock (buf ++ x) pos = .ok b →
      (∃ n, x = readAt data (pos + hsize) n) → FoundAt data b := by
    rintro x b hb ⟨n, hn⟩
    obtain ⟨h1, h2, h3, h4, h5⟩ := key x b hb
    have hxl : x.length ≤ data.length - (pos + hsize) := by rw [hn]; simp [readAt]; omega
    have hxt : x = (data.drop (pos + hsize)).take x.length := by
      rw [hn]; simp [readAt]
    refine ⟨by omega, by rw [h5, h4, List.length_append, hbufl]; omega, ?_, ?_⟩
    · rw [h1, h5, List.length_append, hbufl]; omega
    · rw [h1, h5]
      simp only [List.length_append, hbufl]
      unfold readAt
      rw [List.take_add, List.drop_drop, ← hxt]
      congr 1
  simp only at h
  split at h
  · -- stored file
    rename_i h6a
    rw [bind_eq_ok] at h
    obtain ⟨b', hb', h⟩ := h
    simp only [pure_eq_ok, Except.ok.injEq, Prod.mk.injEq] at h
    obtain ⟨rfl, rfl, rfl⟩ := h
    have hb2 : mkBlock (buf ++ []) pos = .ok b' := by rwa [List.append_nil]
    obtain ⟨h1, h2, h3, h4, h5⟩ := key [] b' hb2
    have hr0 : isRec = false := by
      rw [isRecoveryHdr_of_ne (by omega) (by omega)] at hrec
      simpa using hrec.symm
    refine ⟨h1, h2, h3, h4, keyfound [] b' hb2 ⟨0, by simp [readAt]⟩, ?_, hrr, by rwa [h5]⟩
    unfold skippedLen
    rw [h4, if_neg (by omega), h2, if_pos h6a, keysize [] b' hb2, h5, hsk0 hr0]
    simp [hbufl]
  · split at h
    · rename_i hn6a hc
      rw [bind_eq_ok] at h
      obtain ⟨b', hb', h⟩ := h
      simp only [pure_eq_ok, Except.ok.injEq, Prod.mk.injEq] at h
      obtain ⟨rfl, rfl, rfl⟩ := h
      have hsk := hsk0 hc.2.1
      subst hsk
      rw [Nat.add_zero] at hb'
      obtain ⟨h1, h2, h3, h4, h5⟩ := key _ b' hb'
      refine ⟨h1, h2, h3, h4, keyfound _ b' hb' ⟨add, rfl⟩, ?_, hrr, by rwa [h5]⟩
      unfold skippedLen
      rw [h4, if_neg (by omega), h2, if_neg hn6a, if_neg hc.1, keyrec _ b' hb', hc.2.1, h5]
      simp [hbufl]; omega
    · rename_i hn6a hc
      rw [bind_eq_ok] at h
      obtain ⟨b', hb', h⟩ := h
      simp only [pure_eq_ok, Except.ok.injEq, Prod.mk.injEq] at h
      obtain ⟨rfl, hcur, rfl⟩ := h
      have hb2 : mkBlock (buf ++ []) pos = .ok b' := by rwa [List.append_nil]
      obtain ⟨h1, h2, h3, h4, h5⟩ := key [] b' hb2
      refine ⟨h1, h2, h3, h4, keyfound [] b' hb2 ⟨0, by simp [readAt]⟩, ?_, hrr, by rwa [h5]⟩
      have hraw : b'.raw.length = hsize := by rw [h5]; simp [hbufl]
      have hskip : skippedLen mode rr b' = if btype = 0x74 then (if mode = .rar then b'.addSize else 0)
          else if isRec = true then (if mode = .rar ∨ rr = some false then add else 0) else 0 := by
        unfold skippedLen
        rw [h4, if_neg (by omega), h2, if_neg hn6a, keysize [] b' hb2, keyrec [] b' hb2]
      rw [h3] at hcur
      rw [← hcur, hskip, hraw]
      by_cases h74 : btype = 0x74
      · have hr0 : isRec = false := by
          rw [isRecoveryHdr_of_ne (by omega) (by omega)] at hrec
          simpa using hrec.symm
        rw [hsk0 hr0, if_pos h74]
        by_cases hm : mode = .rar
        · by_cases hl : hasFlag flags 0x100 = true
          · simp [h74, hm, hl]
          · -- packed size is the low 32 bits
            have hadd4 : unpackAt 4 buf 7 = .ok add := by
              rw [if_pos (Or.inr (Or.inl h74))] at hadd; exact hadd
            have hps : b'.addSize = add := by
              rw [mkBlock_ok_iff] at hb'
              obtain ⟨_, _, _, _, _, _, _, a2, _, hk⟩ := hb'
              rw [h2, h74, h3] at hk
              simp only [mkKind] at hk
              simp only [Nat.reduceEqDiff, if_false, if_true, bind_eq_ok] at hk
              obtain ⟨⟨f, p⟩, hpf, hk⟩ := hk
              simp only [pure_eq_ok, Except.ok.injEq, Prod.mk.injEq] at hk
              unfold parseFile at hpf
              simp only [hadd4, ok_bind] at hpf
              simp only [bind_eq_ok] at hpf
              obtain ⟨u, _, o, _, c, _, d, _, v, _, m, _, n, _, at', _, ⟨p1, p2, p3⟩, hlarge, hpf⟩ := hpf
              rw [if_neg hl] at hlarge
              simp only [Except.ok.injEq, Prod.mk.injEq] at hlarge
              obtain ⟨nm, _, ⟨tm, p4⟩, _, hpf⟩ := hpf
              simp only [pure_eq_ok, Except.ok.injEq, Prod.mk.injEq] at hpf
              rw [← hk.1, ← hpf.1, ← hlarge.1]
            rw [hps]
            by_cases ha : add > 0 <;> simp [h74, hm, hl, ha]
            omega
        · simp [hm]
      · rw [if_neg h74]
        by_cases hr : isRec = true
        · rw [if_pos hr]
          unfold recStep at hstep
          by_cases hm : mode = .rar
          · simp only [hm] at hstep ⊢
            simp at hstep
            rw [← hstep.2]
            by_cases ha : add > 0 <;> simp [h74, ha]
            omega
          · have hm' : mode = .srr := by cases mode <;> simp_all
            have h71 : btype ≠ 0x71 := by
              intro h71
              rw [isRecoveryHdr_of_ne (by omega) (by omega)] at hrec
              simp_all
            simp only [hm', if_true, if_neg h71, hr] at hstep
            cases hrr' : rr with
            | none => simp [hrr'] at hstep
            | some v => cases v <;> simp_all
        · have hr0 : isRec = false := by simpa using hr
          have ha : ¬ add > 0 := fun ha => hc ⟨h74, hr0, ha⟩
          rw [hsk0 hr0, hr0]
          simp [h74, ha]

end Rescene
