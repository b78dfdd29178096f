import Verif.Lemmas.Blocks
namespace Rescene

/-- The length of a file of the form `pre ++ (h ++ rest)` is not reached at `pre`. -/
theorem readBlock_hdr {mode : Mode} {pre h rest : Bytes} {st : RState} {btype flags : Nat}
    (hpos : st.pos = pre.length) (h7 : 7 < h.length)
    (ht : unpackAt 1 h 2 = .ok btype) (hf : unpackAt 2 h 3 = .ok flags)
    (hs : unpackAt 2 h 5 = .ok h.length) (hend : ¬ (st.endSeen = true ∧ mode = .rar)) :
    readBlock mode (pre ++ (h ++ rest)) st =
      (do
        let (b, cur, rr) ← readBody mode (pre ++ (h ++ rest)) pre.length (h.take 7) btype flags
          h.length st.recRemoved
        return some (b, ⟨cur, st.endSeen || btype == 0x7B, rr⟩)) := by
  have hl : (pre ++ (h ++ rest)).length = pre.length + h.length + rest.length := by simp; omega
  have hr : readAt (pre ++ (h ++ rest)) pre.length 7 = h.take 7 := by
    rw [readAt_append_drop, List.take_append_of_le_length (by omega)]
  unfold readBlock
  rw [hpos, if_neg (by omega), if_neg (by omega), hr]
  simp only [unpackAt_take (show 2 + 1 ≤ 7 by omega) (by omega : 7 ≤ h.length), ht,
    unpackAt_take (show 3 + 2 ≤ 7 by omega) (by omega : 7 ≤ h.length), hf,
    unpackAt_take (show 5 + 2 ≤ 7 by omega) (by omega : 7 ≤ h.length), hs, ok_bind]
  rw [if_neg hend, if_neg (by omega), if_neg (by omega)]

/-- The buffer of a header that is completely present. -/
theorem readBody_at {mode : Mode} {pre h rest : Bytes} {btype flags : Nat} {rr : Option Bool}
    (h7 : 7 < h.length) :
    readBody mode (pre ++ (h ++ rest)) pre.length (h.take 7) btype flags h.length rr =
      (do
        let add ← (if hasFlag flags 0x8000 = true ∨ btype = 0x74 ∨ btype = 0x7A then unpackAt 4 h 7
          else .ok 0 : Res Nat)
        let isRec ← isRecoveryHdr btype h.length h
        let (rr, sk) ← recStep mode rr btype flags add isRec
        if btype = 0x6A then do
          let b ← mkBlock h pre.length
          return (b, pre.length + h.length + sk + add, rr)
        else if btype ≠ 0x74 ∧ isRec = false ∧ add > 0 then do
          let extra := (rest.drop sk).take add
          let b ← mkBlock (h ++ extra) pre.length
          return (b, pre.length + h.length + sk + extra.length, rr)
        else do
          let cur := if mode = .rar ∧ add > 0 then pre.length + h.length + sk + add
            else pre.length + h.length + sk
          let b ← mkBlock h pre.length
          let cur :=
            if btype = 0x74 ∧ hasFlag b.flags 0x100 = true ∧ mode = .rar
            then pre.length + h.length + b.addSize else cur
          return (b, cur, rr)) := by
  have hbuf : h.take 7 ++ readAt (pre ++ (h ++ rest)) (pre.length + 7) (h.length - 7) = h := by
    have : readAt (pre ++ (h ++ rest)) (pre.length + 7) (h.length - 7) = h.drop 7 := by
      unfold readAt
      rw [← List.drop_drop, List.drop_left, List.drop_append_of_le_length (by omega)]
      rw [List.take_append_of_le_length (by simp), List.take_of_length_le (by simp)]
    rw [this, List.take_append_drop]
  have hex : ∀ sk add, readAt (pre ++ (h ++ rest)) (pre.length + h.length + sk) add =
      (rest.drop sk).take add := by
    intro sk add
    unfold readAt
    rw [← List.drop_drop, ← List.drop_drop, List.drop_left, List.drop_left]
  unfold readBody
  simp only [hbuf, hex]

end Rescene
