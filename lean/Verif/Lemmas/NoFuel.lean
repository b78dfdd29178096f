import Verif.Lemmas.ReadLoop
namespace Rescene
open Spec

theorem encByte_no_fuel {b : Bytes} : encByte b ≠ .error .fuel := by
  cases b <;> simp [encByte]

theorem encByte_ok {b : Bytes} {c : Nat} {t : Bytes} (h : encByte b = .ok (c, t)) :
    b.length = t.length + 1 := by
  cases b with
  | nil => simp [encByte] at h
  | cons x b => simp [encByte] at h; simp [h.2]

theorem stdRun_no_fuel {std : Bytes} {f : Nat → Nat} {hi n pos : Nat} :
    stdRun std f hi n pos ≠ .error .fuel := by
  induction n generalizing pos with
  | zero => simp [stdRun]
  | succ n ih =>
    unfold stdRun
    split
    · simp
    · exact bind_no_fuel ih (fun _ _ => by simp)

/-- Decoding a compressed unicode name never exhausts its budget. -/
theorem ufLoop_no_fuel {std : Bytes} {hi fuel : Nat} {enc : Bytes} {flags flagbits pos : Nat}
    (h : enc.length ≤ fuel) : ufLoop std hi fuel enc flags flagbits pos ≠ .error .fuel := by
  induction fuel generalizing enc flags flagbits pos with
  | zero =>
    have : enc = [] := List.length_eq_zero_iff.mp (by omega)
    subst this; simp [ufLoop]
  | succ fuel ih =>
    cases enc with
    | nil => simp [ufLoop]
    | cons x enc =>
      unfold ufLoop
      refine bind_no_fuel ?_ ?_
      · split
        · exact bind_no_fuel encByte_no_fuel (fun _ _ => by simp)
        · simp
      · rintro ⟨fl, fb, e⟩ he
        have hel : e.length ≤ fuel + 1 := by
          split at he
          · rw [bind_eq_ok] at he
            obtain ⟨⟨c, t⟩, hc, he⟩ := he
            have := encByte_ok hc
            simp at he
            rw [← he.2.2]; simp at this h; omega
          · simp at he; rw [← he.2.2]; simpa using h
        simp only
        split
        · refine bind_no_fuel encByte_no_fuel ?_
          rintro ⟨c, e'⟩ hc
          have := encByte_ok hc
          exact bind_no_fuel (ih (by first | omega | (dsimp only at *; omega))) (fun _ _ => by simp)
        · split
          · refine bind_no_fuel encByte_no_fuel ?_
            rintro ⟨c, e'⟩ hc
            have := encByte_ok hc
            exact bind_no_fuel (ih (by first | omega | (dsimp only at *; omega))) (fun _ _ => by simp)
          · split
            · refine bind_no_fuel encByte_no_fuel ?_
              rintro ⟨c, e'⟩ hc
              refine bind_no_fuel encByte_no_fuel ?_
              rintro ⟨d, e''⟩ hd
              have := encByte_ok hc
              have := encByte_ok hd
              exact bind_no_fuel (ih (by first | omega | (dsimp only at *; omega))) (fun _ _ => by simp)
            · refine bind_no_fuel encByte_no_fuel ?_
              rintro ⟨n, e'⟩ hn
              have := encByte_ok hn
              simp only
              split
              · refine bind_no_fuel encByte_no_fuel ?_
                rintro ⟨d, e''⟩ hd
                have := encByte_ok hd
                exact bind_no_fuel stdRun_no_fuel fun _ _ =>
                  bind_no_fuel (ih (by first | omega | (dsimp only at *; omega))) (fun _ _ => by simp)
              · exact bind_no_fuel stdRun_no_fuel fun _ _ =>
                  bind_no_fuel (ih (by first | omega | (dsimp only at *; omega))) (fun _ _ => by simp)

theorem unicodeFilename_no_fuel {std enc : Bytes} : unicodeFilename std enc ≠ .error .fuel := by
  unfold unicodeFilename
  refine bind_no_fuel encByte_no_fuel ?_
  rintro ⟨hi, e⟩ he
  exact bind_no_fuel (ufLoop_no_fuel (Nat.le_refl _)) (fun _ _ => by simp)

theorem packedName_no_fuel {flags : Nat} {n : Bytes} : packedName flags n ≠ .error .fuel := by
  unfold packedName
  split
  · split <;> exact unicodeFilename_no_fuel
  · simp

theorem xtimeRem_no_fuel {d : Bytes} {cnt pos rem : Nat} : xtimeRem d cnt pos rem ≠ .error .fuel := by
  induction cnt generalizing pos rem with
  | zero => simp [xtimeRem]
  | succ cnt ih => unfold xtimeRem; exact bind_no_fuel unpackAt_no_fuel (fun _ _ => ih)

theorem parseXTime_no_fuel {flag : Nat} {d : Bytes} {pos : Nat} {dt} :
    parseXTime flag d pos dt ≠ .error .fuel := by
  unfold parseXTime
  split
  · refine bind_no_fuel ?_ ?_
    · split
      · simp
      · exact bind_no_fuel unpackAt_no_fuel (fun _ _ => by simp)
    · rintro ⟨a, p⟩ _
      exact bind_no_fuel xtimeRem_no_fuel (fun _ _ => by simp)
  · simp

theorem parseExtTime_no_fuel {d : Bytes} {pos : Nat} {dt} :
    parseExtTime d pos dt ≠ .error .fuel := by
  unfold parseExtTime
  refine bind_no_fuel ?_ ?_
  · split
    · exact bind_no_fuel unpackAt_no_fuel (fun _ _ => by simp)
    · simp
  · rintro ⟨a, p⟩ _
    exact bind_no_fuel parseXTime_no_fuel fun _ _ => bind_no_fuel parseXTime_no_fuel fun _ _ =>
      bind_no_fuel parseXTime_no_fuel fun _ _ => bind_no_fuel parseXTime_no_fuel fun _ _ => by simp

theorem parseFile_no_fuel {d : Bytes} {flags : Nat} : parseFile d flags ≠ .error .fuel := by
  unfold parseFile
  iterate 9 refine bind_no_fuel unpackAt_no_fuel fun _ _ => ?_
  refine bind_no_fuel ?_ ?_
  · split
    · exact bind_no_fuel unpackAt_no_fuel fun _ _ => bind_no_fuel unpackAt_no_fuel fun _ _ => by simp
    · simp
  · rintro ⟨a, b, p⟩ _
    refine bind_no_fuel packedName_no_fuel fun _ _ => ?_
    refine bind_no_fuel ?_ (fun _ _ => by simp)
    split
    · exact bind_no_fuel parseExtTime_no_fuel (fun _ _ => by simp)
    · simp

theorem unpackFileName_no_fuel {d : Bytes} {p : Nat} : unpackFileName d p ≠ .error .fuel := by
  unfold unpackFileName
  exact bind_no_fuel unpackAt_no_fuel fun _ _ => utf8Dec_no_fuel _

theorem ite_no_fuel {α} {c : Prop} [Decidable c] {a b : Res α} (ha : a ≠ .error .fuel)
    (hb : b ≠ .error .fuel) : (if c then a else b) ≠ .error .fuel := by
  by_cases h : c
  · rw [if_pos h]; exact ha
  · rw [if_neg h]; exact hb

theorem mkKind_no_fuel {d : Bytes} {t f a : Nat} : mkKind d t f a ≠ .error .fuel := by
  unfold mkKind
  refine ite_no_fuel ?_ ?_
  · refine bind_no_fuel ?_ (fun _ _ => by simp)
    unfold parseSrrHeader
    split
    · exact bind_no_fuel unpackAt_no_fuel fun _ _ => bind_no_fuel (utf8Dec_no_fuel _) (fun _ _ => by simp)
    · simp
  refine ite_no_fuel ?_ ?_
  · exact bind_no_fuel unpackAt_no_fuel fun _ _ => bind_no_fuel unpackFileName_no_fuel (fun _ _ => by simp)
  refine ite_no_fuel ?_ ?_
  · exact bind_no_fuel unpackFileName_no_fuel (fun _ _ => by simp)
  refine ite_no_fuel ?_ ?_
  · exact bind_no_fuel unpackAt_no_fuel fun _ _ => bind_no_fuel unpackAt_no_fuel fun _ _ =>
      bind_no_fuel unpackFileName_no_fuel (fun _ _ => by simp)
  refine ite_no_fuel ?_ ?_
  · exact bind_no_fuel unpackAt_no_fuel (fun _ _ => by simp)
  refine ite_no_fuel ?_ ?_
  · exact bind_no_fuel unpackAt_no_fuel fun _ _ => bind_no_fuel unpackAt_no_fuel (fun _ _ => by simp)
  refine ite_no_fuel ?_ ?_
  · exact bind_no_fuel parseFile_no_fuel (fun _ _ => by simp)
  refine ite_no_fuel ?_ ?_
  · refine bind_no_fuel parseFile_no_fuel ?_
    rintro ⟨f, p⟩ _
    simp only
    split
    · exact bind_no_fuel unpackAt_no_fuel fun _ _ => bind_no_fuel unpackAt_no_fuel (fun _ _ => by simp)
    · simp
  refine ite_no_fuel ?_ ?_
  · iterate 4 refine bind_no_fuel unpackAt_no_fuel fun _ _ => ?_
    simp
  refine ite_no_fuel ?_ ?_
  · refine bind_no_fuel ?_ ?_
    · split
      · exact bind_no_fuel unpackAt_no_fuel (fun _ _ => by simp)
      · simp
    · rintro ⟨c, p⟩ _
      refine bind_no_fuel ?_ (fun _ _ => by simp)
      split
      · exact bind_no_fuel unpackAt_no_fuel (fun _ _ => by simp)
      · simp
  · simp

theorem mkBlock_no_fuel {d : Bytes} {p : Nat} : mkBlock d p ≠ .error .fuel := by
  unfold mkBlock
  iterate 4 refine bind_no_fuel unpackAt_no_fuel fun _ _ => ?_
  split
  · simp
  · refine bind_no_fuel ?_ fun _ _ => bind_no_fuel mkKind_no_fuel (fun _ _ => by simp)
    split
    · exact unpackAt_no_fuel
    · simp

theorem paddingBlock_no_fuel {p : Nat} {x : Bytes} : paddingBlock p x ≠ .error .fuel := by
  unfold paddingBlock mkPadding
  refine bind_no_fuel (bind_no_fuel ?_ fun _ _ => bind_no_fuel pack_no_fuel (fun _ _ => by simp)) (fun _ _ => by simp)
  unfold writeHeader
  exact bind_no_fuel pack_no_fuel fun _ _ => bind_no_fuel pack_no_fuel fun _ _ =>
    bind_no_fuel pack_no_fuel fun _ _ => bind_no_fuel pack_no_fuel (fun _ _ => by simp)

theorem readBody_no_fuel {mode : Mode} {d : Bytes} {p : Nat} {h : Bytes} {t f s : Nat} {r : Option Bool} :
    readBody mode d p h t f s r ≠ .error .fuel := by
  unfold readBody
  refine bind_no_fuel ?_ ?_
  · split
    · exact unpackAt_no_fuel
    · simp
  intro add _
  refine bind_no_fuel ?_ ?_
  · unfold isRecoveryHdr
    split
    · simp
    · split
      · exact bind_no_fuel unpackAt_no_fuel (fun _ _ => by simp)
      · simp
  intro isRec _
  refine bind_no_fuel ?_ ?_
  · unfold recStep
    split
    · split
      · simp
      · split
        · split <;> simp
        · simp
    · simp
  rintro ⟨rr, sk⟩ _
  simp only
  split
  · exact bind_no_fuel mkBlock_no_fuel (fun _ _ => by simp)
  · split
    · exact bind_no_fuel mkBlock_no_fuel (fun _ _ => by simp)
    · exact bind_no_fuel mkBlock_no_fuel (fun _ _ => by simp)

theorem readBlock_no_fuel {mode : Mode} {d : Bytes} {st : RState} :
    readBlock mode d st ≠ .error .fuel := by
  unfold readBlock
  split
  · simp
  split
  · split
    · exact bind_no_fuel paddingBlock_no_fuel (fun _ _ => by simp)
    · simp
  · refine bind_no_fuel unpackAt_no_fuel fun _ _ => bind_no_fuel unpackAt_no_fuel fun _ _ =>
      bind_no_fuel unpackAt_no_fuel fun _ _ => ?_
    split
    · exact bind_no_fuel paddingBlock_no_fuel (fun _ _ => by simp)
    · split
      · simp
      · split
        · split
          · exact bind_no_fuel mkBlock_no_fuel (fun _ _ => by simp)
          · refine bind_no_fuel unpackAt_no_fuel fun _ _ => bind_no_fuel ?_ (fun _ _ => by simp)
            split
            · exact unpackAt_no_fuel
            · simp
        · exact bind_no_fuel readBody_no_fuel (fun _ _ => by simp)

/-- The loop never exhausts a budget larger than the number of bytes left. -/
theorem readLoop_no_fuel {mode : Mode} {data : Bytes} {fuel : Nat} {st : RState}
    (hinv : EndOk mode data st) (h : data.length - st.pos < fuel) :
    readLoop mode data fuel st ≠ .error .fuel := by
  induction fuel generalizing st with
  | zero => omega
  | succ fuel ih =>
    unfold readLoop
    refine bind_no_fuel readBlock_no_fuel ?_
    intro o ho
    cases o with
    | none => simp
    | some p =>
      obtain ⟨b, st'⟩ := p
      obtain ⟨_, h1, h2, h3, _⟩ := readBlock_some hinv ho
      simp only
      exact bind_no_fuel (ih h3 (by omega)) (fun _ _ => by simp)

/-- Any larger budget gives the same result. -/
theorem readLoop_mono {mode : Mode} {data : Bytes} {f g : Nat} {st : RState}
    (hinv : EndOk mode data st) (h : data.length - st.pos < f) (hg : f ≤ g) :
    readLoop mode data g st = readLoop mode data f st := by
  induction f generalizing st g with
  | zero => omega
  | succ f ih =>
    obtain ⟨g, rfl⟩ : ∃ g', g = g' + 1 := ⟨g - 1, by omega⟩
    unfold readLoop
    cases ho : readBlock mode data st with
    | error e => rfl
    | ok o =>
      cases o with
      | none => rfl
      | some p =>
        obtain ⟨b, st'⟩ := p
        obtain ⟨_, h1, h2, h3, _⟩ := readBlock_some hinv ho
        simp only [ok_bind]
        rw [ih h3 (by omega) (by omega : f ≤ g)]

theorem endOk_init {mode : Mode} {data : Bytes} : EndOk mode data RState.init := by
  intro h; simp [RState.init] at h

/-- A clean read tiles the file. -/
theorem readLoop_tiles {mode : Mode} {data : Bytes} {fuel : Nat} {st : RState} {tr : List (Block × Nat)}
    (hinv : EndOk mode data st) (h : readLoop mode data fuel st = .ok tr) :
    Tiles mode data tr st.recRemoved st.pos data.length ∧ st.pos ≤ data.length := by
  induction fuel generalizing st tr with
  | zero => simp [readLoop] at h
  | succ fuel ih =>
    unfold readLoop at h
    rw [bind_eq_ok] at h
    obtain ⟨o, ho, h⟩ := h
    cases o with
    | none =>
      simp at h; subst h
      exact ⟨readBlock_none ho, Nat.le_of_eq (readBlock_none ho)⟩
    | some p =>
      obtain ⟨b, st'⟩ := p
      simp only [bind_eq_ok] at h
      obtain ⟨t, ht, h⟩ := h
      simp at h; subst h
      obtain ⟨h1, h2, h3, h4, h5⟩ := readBlock_some hinv ho
      obtain ⟨ih1, ih2⟩ := ih h4 ht
      refine ⟨⟨h1, h3, ih2, ?_, ?_⟩, by omega⟩
      · rcases h5 with h5 | h5
        · exact Or.inl ⟨h5.1, h5.2.1⟩
        · refine Or.inr ⟨h5.1, h5.2.1, h5.2.2.1, ?_⟩
          cases t with
          | nil => rfl
          | cons x t =>
            obtain ⟨xb, xe⟩ := x
            have hx1 := ih1.2.1
            have hx2 := ih1.2.2.1
            have := h5.2.2.1
            omega
      · rcases h5 with h5 | h5
        · rw [← h5.2.2.1]; exact ih1
        · have hm : mode ≠ .srr := by rw [h5.1]; simp
          rw [if_neg (fun hh => hm hh.1), ← h5.2.2.2.1]; exact ih1

end Rescene
