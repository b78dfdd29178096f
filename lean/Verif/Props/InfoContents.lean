import Verif.Spec.InfoContents
import Verif.Props.InfoSizes
/-
C58: what `info` reports.
-/
namespace Rescene.Props
open Rescene Rescene.Spec

theorem dictSet_lookup {α : Type} (d : List (Str × α)) (k k' : Str) (v : α) :
    (dictSet d k v).lookup k' = if k' = k then some v else d.lookup k' := by
  unfold dictSet
  split
  · rename_i h
    induction d with
    | nil => simp at h
    | cons x t ih =>
      obtain ⟨a, w⟩ := x
      rw [List.map_cons]
      by_cases hak : a = k
      · subst hak
        simp only [beq_self_eq_true, if_true, List.lookup_cons]
        by_cases hk : k' = a
        · simp [hk]
        · have h1 : (k' == a) = false := by simpa using hk
          rw [h1, if_neg hk]
          dsimp only
          by_cases hm : t.any (fun x => x.1 == a) = true
          · have := ih hm; rw [if_neg hk] at this; exact this
          · have : t.map (fun x => if (x.1 == a) = true then (a, v) else x) = t := by
              conv => rhs; rw [← List.map_id t]
              apply List.map_congr_left
              intro y hy
              have : ¬ (y.1 == a) = true := fun hc => hm (List.any_eq_true.mpr ⟨y, hy, hc⟩)
              rw [if_neg this]; rfl
            rw [this]
      · have h1 : (a == k) = false := by simpa using hak
        rw [List.any_cons, h1, Bool.false_or] at h
        simp only [h1, Bool.false_eq_true, if_false, List.lookup_cons]
        by_cases hk : k' = a
        · rw [if_neg (by rw [hk]; exact hak)]
          simp [hk]
        · have h2 : (k' == a) = false := by simpa using hk
          simp only [h2]
          exact ih h
  · rename_i h
    rw [List.lookup_append]
    by_cases hk : k' = k
    · rw [if_pos hk, hk]
      have : d.lookup k = none := by
        rw [List.lookup_eq_none_iff]
        intro p hp
        apply Classical.byContradiction
        intro hc
        refine h (List.any_eq_true.mpr ⟨p, hp, ?_⟩)
        have : k = p.1 := by simpa using hc
        rw [this]; exact beq_self_eq_true _
      rw [this]
      simp
    · rw [if_neg hk, List.lookup_cons]
      have h1 : (k' == k) = false := by simpa using hk
      rw [h1]
      simp

/-- A block adds to the report. -/
theorem infoBlock_fields {lower : Str → Str} {data : Bytes} {i i' : Info} {b : Block} (h : infoBlock lower data i b = .ok i') :
    i'.stored = (storedFiles [b]).foldl (fun d x => dictSet d x.1 x.2) i.stored ∧
    i'.oso = i.oso ++ osoHashes [b] ∧
    i'.app = (headerNames [b]).getLast?.getD i.app ∧
    i'.sfvEntries = i.sfvEntries ++ storedSfv lower data [b] ∧
    i'.archived = ((archivedParts [b]).foldl infoPacked i).archived ∧
    i'.compression = ((archivedParts [b]).foldl infoPacked i).compression := by
  unfold infoBlock at h
  rw [bind_eq_ok] at h
  obtain ⟨⟨j, add⟩, hc, h⟩ := h
  simp only [pure_eq_ok, Except.ok.injEq] at h
  have hs : ∀ (j : Info) (add : Bool), (infoSize j b add).stored = j.stored ∧ (infoSize j b add).oso = j.oso ∧ (infoSize j b add).app = j.app ∧
      (infoSize j b add).sfvEntries = j.sfvEntries ∧ (infoSize j b add).archived = j.archived ∧ (infoSize j b add).compression = j.compression := by
    intro j add
    unfold infoSize
    split <;> exact ⟨rfl, rfl, rfl, rfl, rfl, rfl⟩
  obtain ⟨s1, s2, s3, s4, s5, s6⟩ := hs j add
  rw [← h, s1, s2, s3, s4, s5, s6]
  unfold storedFiles osoHashes headerNames storedSfv archivedParts
  simp only [List.filterMap_cons, List.filterMap_nil, List.flatMap_cons, List.flatMap_nil, List.append_nil]
  unfold infoCase at hc
  by_cases c1 : b.btype = 0x69
  · rw [if_pos c1] at hc
    split at hc
    · rename_i app hk
      simp only [Except.ok.injEq, Prod.mk.injEq] at hc
      rw [← hc.1]
      simp [c1, hk]
    · simp at hc
  rw [if_neg c1] at hc
  by_cases c2 : b.btype = 0x6A
  · rw [if_pos c2] at hc
    split at hc
    · rename_i size name hk
      simp only [Except.ok.injEq, Prod.mk.injEq] at hc
      rw [← hc.1]
      unfold infoStored
      simp only [c2, hk]
      split <;> simp
    · simp at hc
  rw [if_neg c2] at hc
  by_cases c3 : b.btype = 0x71
  · rw [if_pos c3] at hc
    split at hc
    · simp only [Except.ok.injEq, Prod.mk.injEq] at hc
      rw [← hc.1]
      simp [c3, infoRar]
    · simp at hc
  rw [if_neg c3] at hc
  by_cases c4 : b.btype = 0x74
  · rw [if_pos c4] at hc
    split at hc
    · rename_i f hk
      simp only [Except.ok.injEq, Prod.mk.injEq] at hc
      rw [← hc.1]
      simp [c4, hk, infoPacked]
    · simp at hc
  rw [if_neg c4] at hc
  by_cases c5 : b.btype = 0x7A
  · rw [if_pos c5] at hc
    split at hc
    · rw [bind_eq_ok] at hc
      obtain ⟨k, hk, hc⟩ := hc
      simp only [pure_eq_ok, Except.ok.injEq, Prod.mk.injEq] at hc
      rw [← hc.1]
      unfold infoNewSub at hk
      split at hk
      · simp only [Except.ok.injEq] at hk
        rw [← hk]; simp [c5]
      · dsimp only at hk
        split at hk
        · simp only [Except.ok.injEq] at hk
          rw [← hk]; simp [c5]
        · simp at hk
    · simp at hc
  rw [if_neg c5] at hc
  by_cases c6 : b.btype = 0x78
  · rw [if_pos c6] at hc
    simp only [Except.ok.injEq, Prod.mk.injEq] at hc
    rw [← hc.1]
    simp [c6, infoOldRec]
  rw [if_neg c6] at hc
  by_cases c7 : b.btype = 0x6B
  · rw [if_pos c7] at hc
    split at hc
    · rename_i size hash name hk
      simp only [Except.ok.injEq, Prod.mk.injEq] at hc
      rw [← hc.1]
      simp [c7, hk]
    · simp at hc
  rw [if_neg c7] at hc
  simp only [Except.ok.injEq, Prod.mk.injEq] at hc
  rw [← hc.1]
  simp [c1, c2, c4, c7]

theorem packed_congr (ps : List FileFields) : ∀ (i j : Info), i.archived = j.archived → i.compression = j.compression →
    (ps.foldl infoPacked i).archived = (ps.foldl infoPacked j).archived ∧
    (ps.foldl infoPacked i).compression = (ps.foldl infoPacked j).compression := by
  induction ps with
  | nil => intro i j h1 h2; exact ⟨h1, h2⟩
  | cons f t ih =>
    intro i j h1 h2
    rw [List.foldl_cons, List.foldl_cons]
    apply ih
    · simp only [infoPacked, h1]
    · simp only [infoPacked, h1, h2]

theorem infoLoop_fields {lower : Str → Str} {data : Bytes} (bs : List Block) : ∀ {i i' : Info}, infoLoop lower data i bs = .ok i' →
    i'.stored = (storedFiles bs).foldl (fun d x => dictSet d x.1 x.2) i.stored ∧
    i'.oso = i.oso ++ osoHashes bs ∧
    i'.app = (headerNames bs).getLast?.getD i.app ∧
    i'.sfvEntries = i.sfvEntries ++ storedSfv lower data bs ∧
    i'.archived = ((archivedParts bs).foldl infoPacked i).archived ∧
    i'.compression = ((archivedParts bs).foldl infoPacked i).compression := by
  induction bs with
  | nil =>
    intro i i' h
    simp only [infoLoop, Except.ok.injEq] at h
    subst h
    simp [storedFiles, osoHashes, headerNames, storedSfv, archivedParts]
  | cons b t ih =>
    intro i i' h
    rw [infoLoop, bind_eq_ok] at h
    obtain ⟨j, hj, h⟩ := h
    obtain ⟨a1, a2, a3, a4, a5, a6⟩ := infoBlock_fields hj
    obtain ⟨b1, b2, b3, b4, b5, b6⟩ := ih h
    have e1 : storedFiles (b :: t) = storedFiles [b] ++ storedFiles t := by
      rw [← List.singleton_append]; exact List.filterMap_append
    have e2 : osoHashes (b :: t) = osoHashes [b] ++ osoHashes t := by
      rw [← List.singleton_append]; exact List.filterMap_append
    have e3 : headerNames (b :: t) = headerNames [b] ++ headerNames t := by
      rw [← List.singleton_append]; exact List.filterMap_append
    have e4 : archivedParts (b :: t) = archivedParts [b] ++ archivedParts t := by
      rw [← List.singleton_append]; exact List.filterMap_append
    have e5 : storedSfv lower data (b :: t) = storedSfv lower data [b] ++ storedSfv lower data t := by
      rw [← List.singleton_append]; exact List.flatMap_append
    obtain ⟨p1, p2⟩ := packed_congr (archivedParts t) j ((archivedParts [b]).foldl infoPacked i) a5 a6
    refine ⟨?_, ?_, ?_, ?_, ?_, ?_⟩
    · rw [b1, a1, e1, List.foldl_append]
    · rw [b2, a2, e2, List.append_assoc]
    · rw [b3, a3, e3, List.getLast?_append]
      cases (headerNames t).getLast? <;> simp
    · rw [b4, a4, e5, List.append_assoc]
    · rw [b5, e4, List.foldl_append, p1]
    · rw [b6, e4, List.foldl_append, p2]

theorem foldl_lookup {α : Type} (xs : List (Str × α)) (k : Str) : ∀ d : List (Str × α),
    (xs.foldl (fun d x => dictSet d x.1 x.2) d).lookup k = ((xs.filter fun x => x.1 = k).getLast?.map (·.2)).or (d.lookup k) := by
  induction xs with
  | nil => intro d; simp
  | cons x t ih =>
    intro d
    rw [List.foldl_cons, ih, dictSet_lookup, List.filter_cons]
    by_cases hk : k = x.1
    · rw [if_pos hk, if_pos (by simp [hk]), List.getLast?_cons]
      cases (List.filter (fun x => decide (x.1 = k)) t).getLast? <;> simp
    · rw [if_neg hk, if_neg (by simpa [eq_comm] using hk)]

/-- C58: the stored files reported, each under its name with its size (of the last one, if several
have the same name). -/
theorem info_stored {lower upper : Str → Str} {data : Bytes} {i : Info} {bs : List Block} (hb : readAll data = .ok bs)
    (h : info lower upper data = .ok i) (name : Str) :
    i.stored.lookup name = ((storedFiles bs).filter fun x => x.1 = name).getLast?.map (·.2) := by
  unfold info at h
  rw [hb, ok_bind, bind_eq_ok] at h
  obtain ⟨j, hj, h⟩ := h
  simp only [pure_eq_ok, Except.ok.injEq] at h
  rw [← h]
  show j.stored.lookup name = _
  rw [(infoLoop_fields bs hj).1, foldl_lookup]
  simp

/-- C58: the OSO hashes reported are those in the SRR, and the application name is the one in
the header. -/
theorem info_oso_app {lower upper : Str → Str} {data : Bytes} {i : Info} {bs : List Block} (hb : readAll data = .ok bs)
    (h : info lower upper data = .ok i) : i.oso = osoHashes bs ∧ i.app = (headerNames bs).getLast?.getD [] := by
  unfold info at h
  rw [hb, ok_bind, bind_eq_ok] at h
  obtain ⟨j, hj, h⟩ := h
  simp only [pure_eq_ok, Except.ok.injEq] at h
  rw [← h]
  obtain ⟨_, h2, h3, _⟩ := infoLoop_fields bs hj
  exact ⟨by simpa using h2, h3⟩

theorem lookup_map {d : List (Str × RarInfo)} {k : Str} : ∀ {r}, d.lookup k = some r → k ∈ d.map (·.1) := by
  intro r h
  exact List.mem_map_of_mem (lookup_mem h)

theorem dictSet_keys {α : Type} {d : List (Str × α)} {k : Str} {v : α} (h : k ∈ d.map (·.1)) : (dictSet d k v).map (·.1) = d.map (·.1) := by
  unfold dictSet
  obtain ⟨x, hx, hk⟩ := List.mem_map.mp h
  rw [if_pos (List.any_eq_true.mpr ⟨x, hx, by simpa using hk⟩), List.map_map]
  apply List.map_congr_left
  intro y _
  simp only [Function.comp_apply]
  split
  · rename_i hy; exact (by simpa using hy : y.1 = k).symm
  · rfl

theorem lookup_isSome_keys {α : Type} {d : List (Str × α)} {k : Str} : (d.lookup k).isSome = true ↔ k ∈ d.map (·.1) := by
  constructor
  · intro h
    obtain ⟨v, hv⟩ := Option.isSome_iff_exists.mp h
    exact List.mem_map_of_mem (lookup_mem hv)
  · intro h
    apply Classical.byContradiction
    intro hn
    have hn : d.lookup k = none := Option.not_isSome_iff_eq_none.mp hn
    rw [List.lookup_eq_none_iff] at hn
    obtain ⟨x, hx, hk⟩ := List.mem_map.mp h
    have := hn x hx
    simp [hk] at this

theorem infoSfv_spec (lower upper : Str → Str) (es : List SfvEntry) : ∀ rars : List (Str × RarInfo),
    (infoSfv lower upper rars es).2 = es.filter (fun e => sfvKey lower e ∉ rars.map (·.1)) ∧
    ∀ k, (infoSfv lower upper rars es).1.lookup k = (rars.lookup k).map fun r =>
      { r with crc := ((es.filter fun e => sfvKey lower e = k).getLast?.map fun e => upper e.crc).or r.crc } := by
  induction es with
  | nil =>
    intro rars
    refine ⟨rfl, ?_⟩
    intro k
    simp [infoSfv]
  | cons e t ih =>
    intro rars
    rw [infoSfv]
    dsimp only
    cases hl : rars.lookup (lower (basename e.fileName)) with
    | some r =>
      dsimp only
      have hmem : sfvKey lower e ∈ rars.map (·.1) := lookup_isSome_keys.mp (by unfold sfvKey; rw [hl]; rfl)
      obtain ⟨i1, i2⟩ := ih (dictSet rars (lower (basename e.fileName)) { r with crc := some (upper e.crc) })
      refine ⟨?_, ?_⟩
      · rw [i1, dictSet_keys (k := lower (basename e.fileName)) hmem, List.filter_cons, if_neg (by simpa using hmem)]
      · intro k
        rw [i2 k, dictSet_lookup, List.filter_cons]
        by_cases hk : k = lower (basename e.fileName)
        · rw [if_pos hk, hk, hl, if_pos (by simp [sfvKey]), List.getLast?_cons]
          simp only [Option.map_some, Option.some.injEq]
          cases (List.filter (fun e_1 => decide (sfvKey lower e_1 = lower (basename e.fileName))) t).getLast? <;> simp
        · rw [if_neg hk, if_neg (by simpa [sfvKey, eq_comm] using hk)]
    | none =>
      dsimp only
      have hmem : sfvKey lower e ∉ rars.map (·.1) := fun hc => by
        have := lookup_isSome_keys.mpr hc
        unfold sfvKey at this
        rw [hl] at this
        simp at this
      obtain ⟨i1, i2⟩ := ih rars
      refine ⟨?_, ?_⟩
      · rw [List.filter_cons, if_pos (by simpa using hmem), i1]
      · intro k
        rw [i2 k, List.filter_cons]
        by_cases hk : sfvKey lower e = k
        · have : rars.lookup k = none := by rw [← hk]; exact hl
          rw [this]; rfl
        · rw [if_neg (by simpa using hk)]

/-- C58: the checksum reported for a volume is that of its last entry in the stored SFV files, in
upper case; the SFV entries reported are all others. -/
theorem info_sfv {lower upper : Str → Str} {data : Bytes} {i : Info} {bs : List Block} (hb : readAll data = .ok bs)
    (h : info lower upper data = .ok i) :
    (i.sfvEntries = (storedSfv lower data bs).filter fun e => sfvKey lower e ∉ i.rars.map (·.1)) ∧
    ∀ k r, i.rars.lookup k = some r → ∀ e, ((storedSfv lower data bs).filter fun e => sfvKey lower e = k).getLast? = some e →
      r.crc = some (upper e.crc) := by
  unfold info at h
  rw [hb, ok_bind, bind_eq_ok] at h
  obtain ⟨j, hj, h⟩ := h
  simp only [pure_eq_ok, Except.ok.injEq] at h
  obtain ⟨_, _, _, h4, _⟩ := infoLoop_fields bs hj
  have h4 : j.sfvEntries = storedSfv lower data bs := by rw [h4]; rfl
  obtain ⟨s1, s2⟩ := infoSfv_spec lower upper j.sfvEntries j.rars
  rw [← h]
  show (infoSfv lower upper j.rars j.sfvEntries).2 = _ ∧ _
  have hkeys : ∀ k, k ∈ (infoSfv lower upper j.rars j.sfvEntries).1.map (·.1) ↔ k ∈ j.rars.map (·.1) := by
    intro k
    rw [← lookup_isSome_keys, ← lookup_isSome_keys, s2 k]
    simp
  refine ⟨?_, ?_⟩
  · rw [s1, h4]
    apply List.filter_congr
    intro e _
    rw [decide_eq_decide]
    constructor
    · intro hc hm; exact hc ((hkeys _).mp (by rw [h4]; exact hm))
    · intro hc hm; exact hc (by have := (hkeys _).mpr hm; rw [h4] at this; exact this)
  · intro k r hr e he
    have hr : (infoSfv lower upper j.rars j.sfvEntries).1.lookup k = some r := hr
    rw [s2 k] at hr
    obtain ⟨r0, _, hr⟩ := Option.map_eq_some_iff.mp hr
    rw [← hr]
    dsimp only
    rw [h4, he]
    rfl

/-- What is known of a file after another part. -/
def stepArch (old : Option ArchInfo) (f : FileFields) : Option ArchInfo :=
  let a := old.getD (newArch f)
  let a := { a with size := if f.unpackedSize = 0xFFFFFFFF ∧ a.compressed = false then a.size + f.packedSize else a.size }
  let a := { a with size := if f.unpackedSize ≠ 0xFFFFFFFFFFFFFFFF ∧ a.size = 0 then f.unpackedSize else a.size }
  some { a with crc := f.fileCrc }

theorem archived_lookup (ps : List FileFields) (name : Str) : ∀ i : Info,
    (ps.foldl infoPacked i).archived.lookup name = (ps.filter fun f => f.name = name).foldl stepArch (i.archived.lookup name) := by
  induction ps with
  | nil => intro i; rfl
  | cons f t ih =>
    intro i
    rw [List.foldl_cons, ih, List.filter_cons]
    by_cases hn : f.name = name
    · rw [if_pos (by simpa using hn), List.foldl_cons]
      congr 1
      unfold infoPacked stepArch
      dsimp only
      rw [dictSet_lookup, if_pos hn.symm, hn]
    · rw [if_neg (by simpa using hn)]
      congr 1
      unfold infoPacked
      dsimp only
      rw [dictSet_lookup, if_neg (fun hc => hn hc.symm)]

theorem step_crc (ps : List FileFields) : ∀ a : ArchInfo, ∃ b, ps.foldl stepArch (some a) = some b ∧
    b.crc = (ps.getLast?.map (·.fileCrc)).getD a.crc ∧ b.compressed = a.compressed := by
  induction ps with
  | nil => intro a; exact ⟨a, rfl, rfl, rfl⟩
  | cons f t ih =>
    intro a
    rw [List.foldl_cons]
    obtain ⟨b, h1, h2, h3⟩ := ih ((stepArch (some a) f).get rfl)
    refine ⟨b, h1, ?_, h3⟩
    rw [h2, List.getLast?_cons]
    cases t.getLast? <;> rfl

/-- C58: an archived file is reported exactly when some volume has a part of it, with the checksum
of its last part and as compressed when its first part is. -/
theorem info_archived {lower upper : Str → Str} {data : Bytes} {i : Info} {bs : List Block} (hb : readAll data = .ok bs)
    (h : info lower upper data = .ok i) (name : Str) :
    (partsOf name bs = [] → i.archived.lookup name = none) ∧
    ∀ first last, (partsOf name bs).head? = some first → (partsOf name bs).getLast? = some last →
      ∃ a, i.archived.lookup name = some a ∧ a.crc = last.fileCrc ∧ a.compressed = (first.method != 0x30) := by
  unfold info at h
  rw [hb, ok_bind, bind_eq_ok] at h
  obtain ⟨j, hj, h⟩ := h
  simp only [pure_eq_ok, Except.ok.injEq] at h
  obtain ⟨_, _, _, _, h5, _⟩ := infoLoop_fields bs hj
  have hl : i.archived.lookup name = (partsOf name bs).foldl stepArch none := by
    rw [← h]
    show j.archived.lookup name = _
    rw [h5, archived_lookup]
    rfl
  rw [hl]
  refine ⟨fun he => by rw [he]; rfl, ?_⟩
  intro first last hf hla
  cases hp : partsOf name bs with
  | nil => rw [hp] at hf; simp at hf
  | cons f t =>
    rw [hp] at hf hla
    simp only [List.head?_cons, Option.some.injEq] at hf
    subst hf
    rw [List.foldl_cons]
    obtain ⟨b, b1, b2, b3⟩ := step_crc t ((stepArch none f).get rfl)
    refine ⟨b, b1, ?_, b3⟩
    rw [b2]
    rw [List.getLast?_cons] at hla
    cases ht : t.getLast? with
    | none =>
      rw [ht] at hla
      simp only [Option.getD_none, Option.some.injEq] at hla
      rw [← hla]
      rfl
    | some l =>
      rw [ht] at hla
      simp only [Option.getD_some, Option.some.injEq] at hla
      rw [← hla]
      rfl

theorem step_known {u : Nat} (h32 : u ≠ 0xFFFFFFFF) (ps : List FileFields) (hp : ∀ f ∈ ps, f.unpackedSize = u) :
    ∀ a : ArchInfo, a.size = u → ∃ b, ps.foldl stepArch (some a) = some b ∧ b.size = u := by
  induction ps with
  | nil => intro a ha; exact ⟨a, rfl, ha⟩
  | cons f t ih =>
    intro a ha
    rw [List.foldl_cons]
    apply ih (fun g hg => hp g (List.mem_cons_of_mem _ hg)) ((stepArch (some a) f).get rfl)
    show (if _ then _ else _) = u
    have hu := hp f (by simp)
    simp only [Option.getD_some, hu, h32, false_and, if_false, ha]
    split <;> rfl

theorem step_unknown (ps : List FileFields) (hp : ∀ f ∈ ps, f.unpackedSize = 0xFFFFFFFF ∧ f.method = 0x30) :
    ∀ a : ArchInfo, a.size > 0 → a.compressed = false →
      ∃ b, ps.foldl stepArch (some a) = some b ∧ b.size = a.size + (ps.map (·.packedSize)).sum := by
  induction ps with
  | nil => intro a ha _; exact ⟨a, rfl, by simp⟩
  | cons f t ih =>
    intro a ha hc
    rw [List.foldl_cons]
    have hs : ((stepArch (some a) f).get rfl).size = a.size + f.packedSize := by
      show (if _ then _ else _) = _
      simp only [Option.getD_some, (hp f (by simp)).1, hc, and_self, if_true]
      rw [if_neg (by omega)]
    obtain ⟨b, h1, h2⟩ := ih (fun g hg => hp g (List.mem_cons_of_mem _ hg)) ((stepArch (some a) f).get rfl) (by omega) hc
    refine ⟨b, h1, ?_⟩
    rw [h2, hs, List.map_cons, List.sum_cons]
    omega

/-- C58: the size reported for an archived file is the size in its headers.  When the size is
not known (32 one bits) and the file is stored, it is the sum of its parts. -/
theorem info_archived_size {lower upper : Str → Str} {data : Bytes} {i : Info} {bs : List Block} (hb : readAll data = .ok bs)
    (h : info lower upper data = .ok i) (name : Str) (hne : partsOf name bs ≠ []) :
    (∀ u, u ≠ 0xFFFFFFFF → u ≠ 0xFFFFFFFFFFFFFFFF → (∀ f ∈ partsOf name bs, f.unpackedSize = u) →
      ∃ a, i.archived.lookup name = some a ∧ a.size = u) ∧
    ((∀ f ∈ partsOf name bs, f.unpackedSize = 0xFFFFFFFF ∧ f.method = 0x30) →
      (∀ f, (partsOf name bs).head? = some f → 0 < f.packedSize) →
      ∃ a, i.archived.lookup name = some a ∧ a.size = ((partsOf name bs).map (·.packedSize)).sum) := by
  unfold info at h
  rw [hb, ok_bind, bind_eq_ok] at h
  obtain ⟨j, hj, h⟩ := h
  simp only [pure_eq_ok, Except.ok.injEq] at h
  obtain ⟨_, _, _, _, h5, _⟩ := infoLoop_fields bs hj
  have hl : i.archived.lookup name = (partsOf name bs).foldl stepArch none := by
    rw [← h]
    show j.archived.lookup name = _
    rw [h5, archived_lookup]
    rfl
  rw [hl]
  cases hp : partsOf name bs with
  | nil => exact absurd hp hne
  | cons f t =>
    rw [List.foldl_cons]
    refine ⟨?_, ?_⟩
    · intro u h32 h64 hu
      apply step_known h32 t (fun g hg => hu g (List.mem_cons_of_mem _ hg)) ((stepArch none f).get rfl)
      show (if _ then _ else _) = u
      have hf := hu f (by simp)
      simp only [Option.getD_none, newArch, hf, h32, h64, ne_eq, not_false_eq_true, and_self, if_true, false_and, if_false, true_and]
      split <;> simp
    · intro hu h0
      have hf := hu f (by simp)
      have hpos := h0 f rfl
      have hs : ((stepArch none f).get rfl).size = f.packedSize := by
        show (if _ then _ else _) = _
        simp only [Option.getD_none, newArch, hf.1, hf.2]
        simp
        intro h0; omega
      obtain ⟨b, b1, b2⟩ := step_unknown t (fun g hg => hu g (List.mem_cons_of_mem _ hg)) ((stepArch none f).get rfl) (by omega)
        (by show (newArch f).compressed = false; simp [newArch, hf.2])
      exact ⟨b, b1, by rw [b2, hs, List.map_cons, List.sum_cons]⟩

/-- A volume with a part of a stored file `x` whose size is not known. -/
def exUnknown (packed : Bytes) : Bytes :=
  [0x52, 0x61, 0x72, 0x21, 0x1A, 0x07, 0x00] ++ [0, 0, 0x73, 0, 0, 13, 0, 0, 0, 0, 0, 0, 0] ++
    ([0, 0, 0x74, 0, 0x80, 33, 0, UInt8.ofNat packed.length, 0, 0, 0, 0xFF, 0xFF, 0xFF, 0xFF, 0] ++ [0, 0, 0, 0] ++
      [0, 0, 0, 0, 20, 0x30, 1, 0, 0, 0, 0, 0, 0x78] ++ packed)

/-- The SRR of two such volumes. -/
def exUnknownSrr (a b : Bytes) : Res Bytes :=
  createSrr exDig id 5 (fun p => if p = str "/a" then some (exUnknown a) else if p = str "/b" then some (exUnknown b) else
      some (str "a.RAR 0123abcd" |>.map UInt8.ofNat))
    (str "app") [(str "x.sfv", str "/x.sfv")] [⟨str "/a", str "/a", str "a.rar"⟩, ⟨str "/b", str "/b", str "a.r00"⟩] false false

/-- What is reported: the size is the sum of the parts, and the checksum of the first volume comes
from the SFV. -/
example : (exUnknownSrr [1, 2] [3] >>= info exLower id).map
      (fun i => (i.app, i.stored, i.archived.map fun x => (x.1, x.2.size))) =
    .ok (str "app", [(str "x.sfv", 14)], [(str "x", 3)]) ∧
    (exUnknownSrr [1, 2] [3] >>= info exLower id).map (fun i => (i.sfvEntries, i.rars.map fun x => (x.1, x.2.crc))) =
    .ok ([], [(str "a.rar", some (str "0123abcd")), (str "a.r00", none)]) := by
  constructor <;> decide +kernel

/-- C58, violation: when the first part of such a file is empty its size is wrong: the marker for
"unknown" is taken as a size. -/
theorem info_empty_first_part :
    (exUnknownSrr [] [1, 2, 3, 4, 5] >>= info exLower id).map (fun i => i.archived.map fun x => (x.1, x.2.size)) =
      .ok [(str "x", 4294967300)] := by
  decide +kernel

end Rescene.Props
