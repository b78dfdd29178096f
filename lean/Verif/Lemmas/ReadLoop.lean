import Verif.Lemmas.ReadStep
namespace Rescene
open Spec

/-- The reader is past the archive end only within the file (RAR mode). -/
def EndOk (mode : Mode) (data : Bytes) (st : RState) : Prop :=
  st.endSeen = true → mode = .rar → st.pos ≤ data.length

theorem paddingBlock_ok {pos : Nat} {x : Bytes} {b : Block} (h : paddingBlock pos x = .ok b) :
    b.pos = pos ∧ b.kind = .padding x.length ∧ b.raw.drop 11 = x ∧ b.raw.length = 11 + x.length ∧
      b.btype = 0x6C ∧ b.hsize = 11 ∧ b.addSize = x.length ∧ mkPadding x = .ok b.raw := by
  unfold paddingBlock at h
  rw [bind_eq_ok] at h
  obtain ⟨raw, hraw, h⟩ := h
  have hraw' := hraw
  rw [mkPadding_ok_iff] at hraw
  simp only [pure_eq_ok, Except.ok.injEq] at h
  subst h
  refine ⟨rfl, rfl, ?_, ?_, rfl, rfl, rfl, hraw'⟩
  · simp only [hraw.2, ← List.append_assoc]
    exact List.drop_left' (by simp)
  · simp [hraw.2]; omega

/-- What a successful step of the reader did. -/
theorem readBlock_some {mode : Mode} {data : Bytes} {st st' : RState} {b : Block}
    (hinv : EndOk mode data st) (h : readBlock mode data st = .ok (some (b, st'))) :
    b.pos = st.pos ∧ st.pos < data.length ∧ st.pos < st'.pos ∧ EndOk mode data st' ∧
    ((FoundAt data b ∧ st'.pos = st.pos + b.raw.length + skippedLen mode st.recRemoved b ∧
        st'.recRemoved = (if mode = .srr ∧ b.hsize ≠ 7 ∧ b.btype = 0x71 then some (hasFlag b.flags 1)
          else st.recRemoved) ∧
        st'.endSeen = (st.endSeen || b.btype == 0x7B) ∧ ¬ (st.endSeen = true ∧ mode = .rar) ∧
        ofLe (slice b.raw 2 3) = b.btype ∧ ofLe (slice b.raw 3 5) = b.flags ∧ ofLe (slice b.raw 5 7) = b.hsize ∧
        (b.hsize = 7 ∨ mkBlock b.raw b.pos = .ok b)) ∨
      (mode = .rar ∧ IsTail data b ∧ st'.pos = data.length ∧ st'.recRemoved = st.recRemoved ∧
        st.endSeen = true ∧ st'.endSeen = true ∧ b.btype = 0x6C ∧ b.hsize = 11 ∧ b.addSize = data.length - b.pos ∧
        mkPadding (data.drop b.pos) = .ok b.raw)) := by
  unfold readBlock at h
  split at h
  · simp at h
  · rename_i hne
    split at h
    · split at h
      · rename_i h7 hend
        have hle := hinv hend.1 hend.2
        rw [bind_eq_ok] at h
        obtain ⟨b', hb', h⟩ := h
        simp only [pure_eq_ok, Except.ok.injEq, Option.some.injEq, Prod.mk.injEq] at h
        obtain ⟨rfl, rfl⟩ := h
        obtain ⟨h1, h2, h3, h4, h5, h6, h8, h9⟩ := paddingBlock_ok hb'
        rw [List.length_drop] at h2 h4 h8
        have e : st.pos + (data.drop st.pos).length = data.length := by rw [List.length_drop]; omega
        refine ⟨h1, by omega, by simp only [e]; omega, fun _ _ => Nat.le_of_eq e, Or.inr ⟨hend.2, ?_, e, rfl, hend.1, hend.1, h5, h6, by rw [h8, h1], by rw [h1]; exact h9⟩⟩
        exact ⟨by rw [h1]; exact h2, by omega, by rw [h1]; exact h3, by rw [h1]; exact h4⟩
      · simp at h
    · rename_i h7
      simp only [bind_eq_ok] at h
      obtain ⟨btype, ht, flags, hf, hsize, hs, h⟩ := h
      split at h
      · rename_i hend
        rw [bind_eq_ok] at h
        obtain ⟨b', hb', h⟩ := h
        simp only [pure_eq_ok, Except.ok.injEq, Option.some.injEq, Prod.mk.injEq] at h
        obtain ⟨rfl, rfl⟩ := h
        have hcat : readAt data st.pos 7 ++ data.drop (st.pos + 7) = data.drop st.pos := by
          unfold readAt
          rw [← List.drop_drop, List.take_append_drop]
        rw [hcat] at hb'
        obtain ⟨h1, h2, h3, h4, h5, h6, h8, h9⟩ := paddingBlock_ok hb'
        rw [List.length_drop] at h2 h4 h8
        have e : st.pos + 7 + (data.drop (st.pos + 7)).length = data.length := by rw [List.length_drop]; omega
        refine ⟨h1, by omega, by simp only [e]; omega, fun _ _ => Nat.le_of_eq e, Or.inr ⟨hend.2, ?_, e, rfl, hend.1, hend.1, h5, h6, by rw [h8, h1], by rw [h1]; exact h9⟩⟩
        exact ⟨by rw [h1]; exact h2, by omega, by rw [h1]; exact h3, by rw [h1]; exact h4⟩
      · rename_i hend
        split at h
        · simp at h
        · rename_i hsz
          have hrl : (readAt data st.pos 7).length = 7 := by simp [readAt]; omega
          split at h
          · -- header of 7 bytes
            rename_i h7'
            have hfound : ∀ b : Block, b.pos = st.pos → b.raw = readAt data st.pos 7 → b.hsize = 7 →
                FoundAt data b := by
              intro b h1 h2 h3
              refine ⟨by omega, by rw [h2, h3, hrl]; omega, by rw [h1, h2, hrl]; omega, ?_⟩
              rw [h1, h2, hrl]
            split at h
            · rw [bind_eq_ok] at h
              obtain ⟨b', hb', h⟩ := h
              simp only [pure_eq_ok, Except.ok.injEq, Option.some.injEq, Prod.mk.injEq] at h
              obtain ⟨rfl, rfl⟩ := h
              have hb2 := hb'
              rw [mkBlock_ok_iff] at hb'
              obtain ⟨_, h2, h3, h4, _, h6, hp, _⟩ := hb'
              rw [ht] at h2; rw [hf] at h3; rw [hs] at h4
              simp only [Except.ok.injEq] at h2 h3 h4
              have hfo := hfound b' hp h6 (by omega)
              refine ⟨hp, by omega, by simp, fun _ _ => by simp only; omega, Or.inl ⟨hfo, ?_, ?_, ?_, hend, ?_, ?_, ?_, Or.inl (by omega)⟩⟩
              · simp [skippedLen, ← h4, h7', h6, hrl]
              · simp [← h4, h7']
              · simp [h2]
              · rw [h6]; exact (unpackAt_ofLe ht).trans h2
              · rw [h6]; exact (unpackAt_ofLe hf).trans h3
              · rw [h6]; exact (unpackAt_ofLe hs).trans h4
            · simp only [bind_eq_ok] at h
              obtain ⟨crc, hcrc, add, hadd, h⟩ := h
              simp only [pure_eq_ok, Except.ok.injEq, Option.some.injEq, Prod.mk.injEq] at h
              obtain ⟨rfl, rfl⟩ := h
              have hfo := hfound ⟨st.pos, crc, btype, flags, hsize, add, readAt data st.pos 7, .plain⟩ rfl rfl h7'
              refine ⟨rfl, by omega, by simp, fun _ _ => by simp only; omega, Or.inl ⟨hfo, ?_, ?_, rfl, hend, ?_, ?_, ?_, Or.inl h7'⟩⟩
              · simp [skippedLen, h7', hrl]
              · simp [h7']
              · exact unpackAt_ofLe ht
              · exact unpackAt_ofLe hf
              · exact unpackAt_ofLe hs
          · rename_i hn7
            rw [bind_eq_ok] at h
            obtain ⟨⟨b', cur, rr⟩, hb', h⟩ := h
            simp only [pure_eq_ok, Except.ok.injEq, Option.some.injEq, Prod.mk.injEq] at h
            obtain ⟨rfl, rfl⟩ := h
            obtain ⟨h1, h2, h3, h4, h5, h6, h8, h9⟩ := readBody_ok (by omega) (by omega) ht hf hs hb'
            have hraw7 : b'.raw.take 7 = readAt data st.pos 7 := by
              have h51 := h5.2.2.2
              have h52 := h5.2.1
              rw [h51, h1]
              unfold readAt
              rw [List.take_take, Nat.min_eq_left (by omega)]
            have hup : ∀ k off, off + k ≤ 7 → ∀ n, unpackAt k (readAt data st.pos 7) off = .ok n →
                ofLe (slice b'.raw off (off + k)) = n := by
              intro k off hk n hn
              rw [← hraw7, unpackAt_take hk (by have := h5.2.1; omega)] at hn
              exact unpackAt_ofLe hn
            refine ⟨h1, by omega, ?_, ?_, Or.inl ⟨h5, h6, ?_, ?_, hend, ?_, ?_, ?_, Or.inr (by rw [h1]; exact h9)⟩⟩
            · have := h5.2.1
              simp only [h6]; omega
            · intro he hm
              simp only at he ⊢
              have h7b : b'.btype = 0x7B := by
                have : ¬ st.endSeen = true := fun h => hend ⟨h, hm⟩
                simp [this] at he
                omega
              have : skippedLen mode st.recRemoved b' = 0 := by
                unfold skippedLen isRecovery
                simp [h7b]
              have h53 := h5.2.2.1
              omega
            · simp only [h8, h2, h3, h4]
              simp [hn7]
            · simp [h2]
            · exact (hup 1 2 (by omega) _ ht).trans h2.symm
            · exact (hup 2 3 (by omega) _ hf).trans h3.symm
            · exact (hup 2 5 (by omega) _ hs).trans h4.symm

theorem readBlock_none {mode : Mode} {data : Bytes} {st : RState}
    (h : readBlock mode data st = .ok none) : st.pos = data.length := by
  unfold readBlock at h
  split at h
  · assumption
  · split at h
    · split at h
      · rw [bind_eq_ok] at h
        obtain ⟨_, _, h⟩ := h
        simp at h
      · simp at h
    · simp only [bind_eq_ok] at h
      obtain ⟨_, _, _, _, _, _, h⟩ := h
      split at h
      · rw [bind_eq_ok] at h
        obtain ⟨_, _, h⟩ := h
        simp at h
      · split at h
        · simp at h
        · split at h
          · split at h
            · rw [bind_eq_ok] at h
              obtain ⟨_, _, h⟩ := h
              simp at h
            · simp only [bind_eq_ok] at h
              obtain ⟨_, _, _, _, h⟩ := h
              simp at h
          · rw [bind_eq_ok] at h
            obtain ⟨_, _, h⟩ := h
            simp at h

/-- No step raises the artificial budget error. -/
theorem unpackAt_no_fuel {k off : Nat} {b : Bytes} : unpackAt k b off ≠ .error .fuel := by
  unfold unpackAt; split <;> simp

theorem pack_no_fuel {k n : Nat} : pack k n ≠ .error .fuel := by
  unfold pack; split <;> simp

/-- A bind raises an error only if one of its parts does. -/
theorem bind_eq_error {α β} {x : Res α} {f : α → Res β} {e : Err} :
    (x >>= f) = Except.error e ↔ x = .error e ∨ ∃ a, x = Except.ok a ∧ f a = Except.error e := by
  cases x <;> simp

theorem bind_no_fuel {α β} {x : Res α} {f : α → Res β} (hx : x ≠ .error .fuel)
    (hf : ∀ a, x = .ok a → f a ≠ .error .fuel) : (x >>= f) ≠ .error .fuel := by
  rw [Ne, bind_eq_error]
  rintro (h | ⟨a, ha, h⟩)
  · exact hx h
  · exact hf a ha h

end Rescene
