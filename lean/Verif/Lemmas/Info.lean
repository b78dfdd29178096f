import Verif.Model.Info
/-
The volumes `info` reports.
-/
namespace Rescene

/-- A volume, with its key. -/
def keyed (r : RarInfo) : Str × RarInfo := (r.key, r)

theorem dictSet_new {α : Type} {d : List (Str × α)} {k : Str} {v : α} (h : k ∉ d.map (·.1)) :
    dictSet d k v = d ++ [(k, v)] := by
  unfold dictSet
  rw [if_neg]
  simp only [Bool.not_eq_true, List.any_eq_false, beq_iff_eq]
  intro x hx hk
  exact h (hk ▸ List.mem_map_of_mem hx)

theorem dictSet_last {α : Type} {d : List (Str × α)} {k : Str} {v w : α} (h : k ∉ d.map (·.1)) :
    dictSet (d ++ [(k, v)]) k w = d ++ [(k, w)] := by
  unfold dictSet
  rw [if_pos (by simp)]
  rw [List.map_append]
  congr 1
  · rw [show d = d.map id by simp]
    rw [List.map_map]
    refine List.map_congr_left ?_
    intro x hx
    have : x.1 ≠ k := fun hk => h (hk ▸ List.mem_map_of_mem hx)
    simp [this]
  · simp

/-- main.py:1107-1117 for a block of the volume. -/
def RarInfo.next (r : RarInfo) (b : Block) : RarInfo :=
  { r with size := r.size + (if b.btype ≠ 0x6C then b.hsize else 0) + b.addSize, stop := b.pos + b.hsize }

/-- The volumes that come from blocks, when the blocks of volume `cur` come first. -/
def rarsOf (lower : Str → Str) : Option RarInfo → List Block → List RarInfo
  | cur, [] => cur.toList
  | cur, b :: t =>
    if b.btype = 0x71 then
      match b.kind with
      | .rarFile name => cur.toList ++ rarsOf lower (some ⟨basename (lower name), name, 0, b.pos + b.hsize, b.pos + b.hsize, none⟩) t
      | _ => []
    else if b.btype = 0x69 ∨ b.btype = 0x6A ∨ b.btype = 0x6B then cur.toList ++ rarsOf lower none t
    else rarsOf lower (cur.map fun r => r.next b) t

theorem rarsOf_some (lower : Str → Str) (bs : List Block) (hk : ∀ b ∈ bs, b.btype = 0x71 → ∃ n, b.kind = .rarFile n) :
    ∀ r, ∃ r' t, rarsOf lower (some r) bs = r' :: t ∧ r'.key = r.key := by
  induction bs with
  | nil => intro r; exact ⟨r, [], rfl, rfl⟩
  | cons b t ih =>
    intro r
    have ih := ih (fun b hb => hk b (List.mem_cons_of_mem _ hb))
    rw [rarsOf.eq_def]
    dsimp only
    split
    · rename_i h71
      obtain ⟨n, hn⟩ := hk b (by simp) h71
      rw [hn]
      exact ⟨r, _, rfl, rfl⟩
    · split
      · exact ⟨r, _, rfl, rfl⟩
      · obtain ⟨r', t', h1, h2⟩ := ih (r.next b)
        exact ⟨r', t', h1, h2⟩

theorem infoCase_other {lower : Str → Str} {data : Bytes} {i i' : Info} {b : Block} {add : Bool}
    (h : infoCase lower data i b = .ok (i', add)) (h71 : b.btype ≠ 0x71) :
    add = true ∧ i'.rars = i.rars ∧ i'.cur = if b.btype = 0x69 ∨ b.btype = 0x6A ∨ b.btype = 0x6B then none else i.cur := by
  unfold infoCase at h
  by_cases c1 : b.btype = 0x69
  · rw [if_pos c1] at h
    split at h
    · simp only [Except.ok.injEq, Prod.mk.injEq] at h
      rw [← h.1, if_pos (Or.inl c1)]
      exact ⟨h.2.symm, rfl, rfl⟩
    · simp at h
  rw [if_neg c1] at h
  by_cases c2 : b.btype = 0x6A
  · rw [if_pos c2] at h
    split at h
    · simp only [Except.ok.injEq, Prod.mk.injEq] at h
      rw [← h.1, if_pos (Or.inr (Or.inl c2))]
      refine ⟨h.2.symm, ?_, ?_⟩ <;> (unfold infoStored; dsimp only; split <;> rfl)
    · simp at h
  rw [if_neg c2, if_neg h71] at h
  by_cases c3 : b.btype = 0x74
  · rw [if_pos c3] at h
    rw [if_neg (by omega)]
    split at h
    · simp only [Except.ok.injEq, Prod.mk.injEq] at h
      rw [← h.1]
      exact ⟨h.2.symm, rfl, rfl⟩
    · simp at h
  rw [if_neg c3] at h
  by_cases c4 : b.btype = 0x7A
  · rw [if_pos c4] at h
    rw [if_neg (by omega)]
    split at h
    · simp only [bind_eq_ok, pure_eq_ok, Except.ok.injEq, Prod.mk.injEq] at h
      obtain ⟨j, h1, rfl, h2⟩ := h
      unfold infoNewSub at h1
      split at h1
      · simp only [Except.ok.injEq] at h1
        subst h1
        exact ⟨h2.symm, rfl, rfl⟩
      · dsimp only at h1
        split at h1
        · simp only [Except.ok.injEq] at h1
          subst h1
          exact ⟨h2.symm, rfl, rfl⟩
        · simp at h1
    · simp at h
  rw [if_neg c4] at h
  by_cases c5 : b.btype = 0x78
  · rw [if_pos c5] at h
    rw [if_neg (by omega)]
    simp only [Except.ok.injEq, Prod.mk.injEq] at h
    rw [← h.1]
    exact ⟨h.2.symm, rfl, rfl⟩
  rw [if_neg c5] at h
  by_cases c6 : b.btype = 0x6B
  · rw [if_pos c6] at h
    split at h
    · simp only [Except.ok.injEq, Prod.mk.injEq] at h
      rw [← h.1, if_pos (Or.inr (Or.inr c6))]
      exact ⟨h.2.symm, rfl, rfl⟩
    · simp at h
  rw [if_neg c6] at h
  rw [if_neg (by omega)]
  simp only [Except.ok.injEq, Prod.mk.injEq] at h
  rw [← h.1]
  exact ⟨h.2.symm, rfl, rfl⟩

theorem info_loop {lower : Str → Str} {data : Bytes} (bs : List Block) : ∀ (i i' : Info) (R : List RarInfo),
    infoLoop lower data i bs = .ok i' → i.rars = (R ++ i.cur.toList).map keyed →
    ((R ++ rarsOf lower i.cur bs).map (·.key)).Nodup →
    i'.rars = (R ++ rarsOf lower i.cur bs).map keyed := by
  have hkd : ∀ l : List RarInfo, (l.map keyed).map (·.1) = l.map (·.key) := by
    intro l; rw [List.map_map]; rfl
  induction bs with
  | nil =>
    intro i i' R h hi hn
    simp only [infoLoop, Except.ok.injEq] at h
    subst h
    exact hi
  | cons b t ih =>
    intro i i' R h hi hn
    rw [infoLoop, bind_eq_ok] at h
    obtain ⟨j, h1, h2⟩ := h
    unfold infoBlock at h1
    simp only [bind_eq_ok, pure_eq_ok, Except.ok.injEq] at h1
    obtain ⟨⟨k, add⟩, h1, hj⟩ := h1
    dsimp only at hj
    have hkinds : ∀ b ∈ t, b.btype = 0x71 → ∃ n, b.kind = .rarFile n := by
      have aux : ∀ (t : List Block) (j : Info), infoLoop lower data j t = .ok i' → ∀ b ∈ t, b.btype = 0x71 → ∃ n, b.kind = .rarFile n := by
        intro t
        induction t with
        | nil => simp
        | cons c t iht =>
          intro j hj b hb h71
          rw [infoLoop, bind_eq_ok] at hj
          obtain ⟨j2, g1, g2⟩ := hj
          rcases List.mem_cons.mp hb with rfl | hb
          · unfold infoBlock infoCase at g1
            rw [h71] at g1
            simp only [show ¬ (0x71 = 0x69) by decide, show ¬ (0x71 = 0x6A) by decide, if_false, if_true] at g1
            split at g1
            · rename_i n hn; exact ⟨n, hn⟩
            · simp at g1
          · exact iht j2 g2 b hb h71
      exact aux t j h2
    rw [rarsOf.eq_def] at hn ⊢
    dsimp only at hn ⊢
    by_cases h71 : b.btype = 0x71
    · rw [if_pos h71] at hn ⊢
      unfold infoCase at h1
      rw [h71] at h1
      simp only [show ¬ (0x71 = 0x69) by decide, show ¬ (0x71 = 0x6A) by decide, if_false, if_true] at h1
      split at h1
      · rename_i name hk
        rw [hk] at hn ⊢
        dsimp only at hn ⊢
        simp only [Except.ok.injEq, Prod.mk.injEq] at h1
        obtain ⟨h1, rfl⟩ := h1
        rw [← List.append_assoc] at hn ⊢
        have hj1 : j.cur = some ⟨basename (lower name), name, 0, b.pos + b.hsize, b.pos + b.hsize, none⟩ := by
          rw [← hj, ← h1]; rfl
        rw [← hj1] at hn ⊢
        refine ih j i' (R ++ i.cur.toList) h2 ?_ hn
        obtain ⟨r', t', e1, e2⟩ := rarsOf_some lower t hkinds ⟨basename (lower name), name, 0, b.pos + b.hsize, b.pos + b.hsize, none⟩
        have hnot : basename (lower name) ∉ (i.rars.map (·.1)) := by
          rw [hi, hkd]
          rw [hj1, e1] at hn
          simp only [List.map_append, List.map_cons] at hn
          rw [List.nodup_append] at hn
          intro hc
          rw [List.map_append] at hc
          have := hn.2.2 _ hc r'.key (by simp)
          exact this e2.symm
        rw [hj1, ← hj, ← h1]
        unfold infoRar infoSize
        dsimp only [Bool.false_eq_true, if_false]
        rw [dictSet_new hnot, dictSet_last hnot, hi]
        simp [keyed]
      · simp at h1
    · rw [if_neg h71] at hn ⊢
      obtain ⟨rfl, g2, g3⟩ := infoCase_other h1 h71
      split at hn
      · rename_i hs
        rw [if_pos hs] at g3 ⊢
        have hj1 : j = k := by
          rw [← hj]; unfold infoSize; rw [g3]
        rw [← List.append_assoc] at hn ⊢
        have hc : j.cur = none := by rw [hj1, g3]
        rw [← hc] at hn ⊢
        refine ih j i' (R ++ i.cur.toList) h2 ?_ hn
        rw [hc, hj1, g2, hi]; simp
      · rename_i hs
        rw [if_neg hs] at g3 ⊢
        have hc : j.cur = i.cur.map fun r => r.next b := by
          rw [← hj]; unfold infoSize; rw [g3]
          cases hcc : i.cur with
          | none => dsimp only; rw [g3, hcc]; rfl
          | some r => rfl
        rw [← hc] at hn ⊢
        refine ih j i' R h2 ?_ hn
        cases hcur : i.cur with
        | none =>
          have hj1 : j = k := by
            rw [← hj]; unfold infoSize; rw [g3, hcur]
          rw [hc, hj1, g2, hi, hcur]; rfl
        | some r =>
          rw [hcur] at hc hi g3
          have hnot : r.key ∉ (R.map keyed).map (·.1) := by
            rw [hkd]
            obtain ⟨r', t', e1, e2⟩ := rarsOf_some lower t hkinds (r.next b)
            rw [hc] at hn
            simp only [Option.map_some, e1, List.map_append, List.map_cons] at hn
            rw [List.nodup_append] at hn
            intro hc
            exact hn.2.2 _ hc r'.key (by simp) e2.symm
          rw [hc, ← hj]
          unfold infoSize
          rw [g3]
          dsimp only
          rw [g2, hi]
          simp only [List.map_append, Option.toList_some, List.map_cons, List.map_nil, keyed, if_true]
          rw [dictSet_last (by exact hnot)]
          rfl

/-- A block `info` accepts. -/
def InfoOk (b : Block) : Prop :=
  (b.btype = 0x69 → ∃ a, b.kind = .srrHeader a) ∧ (b.btype = 0x6A → ∃ s n, b.kind = .stored s n) ∧
  (b.btype = 0x71 → ∃ n, b.kind = .rarFile n) ∧ (b.btype = 0x74 → ∃ f, b.kind = .packed f) ∧
  (b.btype = 0x7A → ∃ f rr, b.kind = .newSub f rr ∧ ∀ rs ds, rr = some (rs, ds) → b.addSize = 512 * rs + 2 * ds) ∧
  (b.btype = 0x6B → ∃ s h n, b.kind = .oso s h n)

theorem infoCase_ok {b : Block} (h : InfoOk b) (lower : Str → Str) (data : Bytes) (i : Info) :
    ∃ x, infoCase lower data i b = .ok x := by
  obtain ⟨h1, h2, h3, h4, h5, h6⟩ := h
  unfold infoCase
  by_cases c1 : b.btype = 0x69
  · rw [if_pos c1]; obtain ⟨_, e⟩ := h1 c1; rw [e]; exact ⟨_, rfl⟩
  rw [if_neg c1]
  by_cases c2 : b.btype = 0x6A
  · rw [if_pos c2]; obtain ⟨_, _, e⟩ := h2 c2; rw [e]; exact ⟨_, rfl⟩
  rw [if_neg c2]
  by_cases c3 : b.btype = 0x71
  · rw [if_pos c3]; obtain ⟨_, e⟩ := h3 c3; rw [e]; exact ⟨_, rfl⟩
  rw [if_neg c3]
  by_cases c4 : b.btype = 0x74
  · rw [if_pos c4]; obtain ⟨_, e⟩ := h4 c4; rw [e]; exact ⟨_, rfl⟩
  rw [if_neg c4]
  by_cases c5 : b.btype = 0x7A
  · rw [if_pos c5]; obtain ⟨_, rr, e, h⟩ := h5 c5; rw [e]
    dsimp only
    unfold infoNewSub
    cases rr with
    | none => exact ⟨_, rfl⟩
    | some p =>
      obtain ⟨rs, ds⟩ := p
      dsimp only
      rw [if_pos (h rs ds rfl)]
      exact ⟨_, rfl⟩
  rw [if_neg c5]
  by_cases c6 : b.btype = 0x78
  · rw [if_pos c6]; exact ⟨_, rfl⟩
  rw [if_neg c6]
  by_cases c7 : b.btype = 0x6B
  · rw [if_pos c7]; obtain ⟨_, _, _, e⟩ := h6 c7; rw [e]; exact ⟨_, rfl⟩
  rw [if_neg c7]
  exact ⟨_, rfl⟩

theorem infoLoop_ok {bs : List Block} (h : ∀ b ∈ bs, InfoOk b) (lower : Str → Str) (data : Bytes) : ∀ i,
    ∃ i', infoLoop lower data i bs = .ok i' := by
  induction bs with
  | nil => intro i; exact ⟨i, rfl⟩
  | cons b t ih =>
    intro i
    obtain ⟨x, hx⟩ := infoCase_ok (h b (by simp)) lower data i
    rw [infoLoop, infoBlock, hx]
    exact ih (fun b hb => h b (List.mem_cons_of_mem _ hb)) _

/-- A volume without its checksum. -/
def noCrc (x : Str × RarInfo) : Str × RarInfo := (x.1, { x.2 with crc := none })

theorem lookup_mem {α : Type} {d : List (Str × α)} {k : Str} {v : α} (h : d.lookup k = some v) : (k, v) ∈ d := by
  induction d with
  | nil => simp at h
  | cons x t ih =>
    obtain ⟨a, b⟩ := x
    rw [List.lookup_cons] at h
    split at h
    · rename_i hk
      simp only [Option.some.injEq] at h
      have : k = a := by simpa using hk
      subst this; subst h
      simp
    · exact List.mem_cons_of_mem _ (ih h)

theorem infoSfv_rars (lower upper : Str → Str) (es : List SfvEntry) : ∀ (rars : List (Str × RarInfo)),
    (rars.map (·.1)).Nodup → (infoSfv lower upper rars es).1.map noCrc = rars.map noCrc := by
  induction es with
  | nil => intro rars _; rfl
  | cons e t ih =>
    intro rars hn
    rw [infoSfv]
    dsimp only
    split
    · rename_i r hl
      have hm := lookup_mem hl
      have hd : dictSet rars (lower (basename e.fileName)) { r with crc := some (upper e.crc) } =
          rars.map fun x => if x.1 == lower (basename e.fileName) then
            (lower (basename e.fileName), { r with crc := some (upper e.crc) }) else x := by
        unfold dictSet
        rw [if_pos]
        rw [List.any_eq_true]
        exact ⟨_, hm, by simp⟩
      have huniq : ∀ (d : List (Str × RarInfo)), (d.map (·.1)).Nodup → ∀ k a b, (k, a) ∈ d → (k, b) ∈ d → a = b := by
        intro d
        induction d with
        | nil => simp
        | cons y d ihd =>
          intro hn k a b ha hb
          simp only [List.map_cons, List.nodup_cons] at hn
          rcases List.mem_cons.mp ha with ha | ha
          · rcases List.mem_cons.mp hb with hb | hb
            · rw [← ha] at hb; simpa using hb.symm
            · exact absurd (by rw [← ha]; exact List.mem_map_of_mem (f := (·.1)) hb) hn.1
          · rcases List.mem_cons.mp hb with hb | hb
            · exact absurd (by rw [← hb]; exact List.mem_map_of_mem (f := (·.1)) ha) hn.1
            · exact ihd hn.2 k a b ha hb
      have hsame : (dictSet rars (lower (basename e.fileName)) { r with crc := some (upper e.crc) }).map noCrc = rars.map noCrc := by
        rw [hd, List.map_map]
        refine List.map_congr_left ?_
        intro x hx
        simp only [Function.comp_apply]
        split
        · rename_i hk
          have hk : x.1 = lower (basename e.fileName) := by simpa using hk
          have hr : x.2 = r := huniq rars hn x.1 x.2 r hx (by rw [hk]; exact hm)
          unfold noCrc
          rw [← hk, ← hr]
        · rfl
      rw [ih _ ?_, hsame]
      have hk : ∀ l : List (Str × RarInfo), (l.map noCrc).map (·.1) = l.map (·.1) := by
        intro l; rw [List.map_map]; rfl
      rw [← hk, hsame, hk]
      exact hn
    · exact ih rars hn

end Rescene
