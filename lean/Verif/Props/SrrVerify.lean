import Verif.Model.SrrCommand
import Verif.Props.InfoContents
/-
C73: verifying the extracted files, `srr -q`.
-/
namespace Rescene.Props
open Rescene Spec

/-- The file has this checksum. -/
def HasCrc (fs : FS) (p : Path) (crc : Nat) : Prop := ∃ d, fs p = some d ∧ (crc32 d 0).toNat = crc

/-- The name with "/" for every "\\", as files are extracted on this system. -/
def withSlashes : Str → Str
  | [] => []
  | c :: s => (if c = 0x5C then 0x2F else c) :: withSlashes s

theorem toSlashes_eq (s : Str) : toSlashes s = withSlashes s := by
  induction s with
  | nil => rfl
  | cons c s ih =>
    rw [withSlashes, ← ih]
    rfl

/-- Where the archived file should be. -/
def extractedAt (folder : Str) (a : ArchInfo) : Path := posixJoin2 folder (withSlashes a.name)

/-- A file that was renamed: it has the size and the checksum, and its name matches the extension. -/
def RenamedTo (fs : FS) (below : List Path) (folder : Str) (a : ArchInfo) : Prop :=
  ∃ f ∈ below, fnmatch (basename f) (0x2A :: extOf (extractedAt folder a)) = true ∧ ∃ d, (fs f).getD [] = d ∧ d.length = a.size ∧
    (crc32 d 0).toNat = a.crc

/-- Nothing is wrong with the archived file. -/
def Verified (fs : FS) (below : List Path) (folder : Str) (auto : Bool) (a : ArchInfo) : Prop :=
  HasCrc fs (extractedAt folder a) a.crc ∨ (fs (extractedAt folder a) = none ∧ auto = true ∧ RenamedTo fs below folder a)

theorem verifyOne_none {fs : FS} {below : List Path} {folder : Str} {auto : Bool} {a : ArchInfo} :
    verifyOne fs below folder auto a = none ↔ (a.crc ≠ 0 → Verified fs below folder auto a) := by
  unfold verifyOne Verified HasCrc RenamedTo extractedAt
  simp only [toSlashes_eq]
  by_cases h0 : a.crc = 0
  · simp [h0]
  · rw [if_neg h0]
    cases hf : fs (posixJoin2 folder (withSlashes a.name)) with
    | some d =>
      dsimp only
      by_cases hc : (crc32 d 0).toNat = a.crc
      · rw [if_pos hc]
        exact ⟨fun _ _ => Or.inl ⟨d, rfl, hc⟩, fun _ => rfl⟩
      · rw [if_neg hc]
        refine ⟨fun h => (by cases h), fun h => ?_⟩
        rcases h h0 with ⟨d', hd, h'⟩ | ⟨h', _⟩
        · exact absurd (Option.some.inj hd ▸ h') hc
        · cases h'
    | none =>
      dsimp only
      cases auto with
      | false => simp [h0]
      | true =>
        simp only [Bool.true_eq_false, if_false]
        by_cases hx : (sameSize fs below (posixJoin2 folder (withSlashes a.name)) a.size).any (fun f => (crc32 ((fs f).getD []) 0).toNat == a.crc) = true
        · rw [if_pos hx]
          simp only [true_iff]
          intro _
          obtain ⟨f, hf1, hf2⟩ := List.any_eq_true.1 hx
          obtain ⟨hf3, hf4⟩ := List.mem_filter.1 hf1
          simp only [Bool.and_eq_true, beq_iff_eq] at hf4 hf2
          exact Or.inr ⟨by simp, by simp, f, hf3, hf4.1, _, rfl, hf4.2, hf2⟩
        · rw [if_neg hx]
          simp only [reduceCtorEq, false_iff]
          intro hv
          rcases hv h0 with ⟨d, hd, _⟩ | ⟨_, _, f, h1, h2, d, h3, h4, h5⟩
          · simp at hd
          · apply hx
            refine List.any_eq_true.2 ⟨f, List.mem_filter.2 ⟨h1, ?_⟩, ?_⟩
            · simp [h2, h3, h4]
            · rw [h3, beq_iff_eq]; exact h5

theorem verifyOne_some {fs : FS} {below : List Path} {folder : Str} {auto : Bool} {a : ArchInfo} {n : Nat}
    (h : verifyOne fs below folder auto a = some n) :
    (n = 1 ∧ ∃ d, fs (extractedAt folder a) = some d ∧ (crc32 d 0).toNat ≠ a.crc) ∨ (n = 2 ∧ fs (extractedAt folder a) = none) := by
  unfold verifyOne at h
  simp only [toSlashes_eq] at h
  split at h
  · cases h
  unfold extractedAt
  cases hf : fs (posixJoin2 folder (withSlashes a.name)) with
  | some d =>
    rw [hf] at h
    dsimp only at h
    split at h
    · cases h
    · next hc => exact Or.inl ⟨(Option.some.inj h).symm, d, rfl, hc⟩
  | none =>
    rw [hf] at h
    dsimp only at h
    right
    refine ⟨?_, rfl⟩
    split at h
    · exact (Option.some.inj h).symm
    · split at h
      · cases h
      · exact (Option.some.inj h).symm

theorem verify_fold {fs : FS} {below : List Path} {folder : Str} {auto : Bool} (l : List ArchInfo) : ∀ s,
    (l.foldl (fun s a => (verifyOne fs below folder auto a).getD s) s = s ∧ ∀ a ∈ l, a.crc ≠ 0 → Verified fs below folder auto a) ∨
    ∃ a ∈ l, ∃ n, verifyOne fs below folder auto a = some n ∧ l.foldl (fun s a => (verifyOne fs below folder auto a).getD s) s = n := by
  induction l with
  | nil => intro s; exact Or.inl ⟨rfl, by simp⟩
  | cons a l ih =>
    intro s
    rw [List.foldl_cons]
    rcases ih ((verifyOne fs below folder auto a).getD s) with ⟨h1, h2⟩ | ⟨b, hb, n, hn, h⟩
    · cases hv : verifyOne fs below folder auto a with
      | none =>
        rw [hv] at h1
        refine Or.inl ⟨h1, fun b hb => ?_⟩
        rcases List.mem_cons.1 hb with rfl | hb
        · exact verifyOne_none.1 hv
        · exact h2 b hb
      | some n =>
        rw [hv] at h1
        exact Or.inr ⟨a, by simp, n, hv, h1⟩
    · exact Or.inr ⟨b, by simp [hb], n, hn, h⟩

/-- C73: the status is 10 when nothing is archived.  Otherwise it is 0 exactly when there is no archived file with a
checksum that is missing or corrupt; a status of 1 means that some file is corrupt and one of 2 that some file is missing. -/
theorem verify_status (fs : FS) (below : List Path) (folder : Str) (auto : Bool) (l : List ArchInfo) :
    (l = [] → verifyFiles fs below folder auto l = 10) ∧
    (l ≠ [] → (verifyFiles fs below folder auto l = 0 ↔ ∀ a ∈ l, a.crc ≠ 0 → Verified fs below folder auto a) ∧
      (verifyFiles fs below folder auto l = 0 ∨
        (verifyFiles fs below folder auto l = 1 ∧ ∃ a ∈ l, ∃ d, fs (extractedAt folder a) = some d ∧ (crc32 d 0).toNat ≠ a.crc) ∨
        (verifyFiles fs below folder auto l = 2 ∧ ∃ a ∈ l, fs (extractedAt folder a) = none))) := by
  constructor
  · rintro rfl; rfl
  intro hl
  unfold verifyFiles
  rw [if_neg hl]
  rcases verify_fold (fs := fs) (below := below) (folder := folder) (auto := auto) l 0 with ⟨h1, h2⟩ | ⟨a, ha, n, hn, h⟩
  · rw [h1]
    exact ⟨by simp; exact h2, Or.inl rfl⟩
  · rw [h]
    have hn' := verifyOne_some hn
    refine ⟨⟨fun h0 => ?_, fun hv => ?_⟩, Or.inr ?_⟩
    · omega
    · rw [verifyOne_none.2 (hv a ha)] at hn
      cases hn
    · rcases hn' with ⟨rfl, h'⟩ | ⟨rfl, h'⟩
      · exact Or.inl ⟨rfl, a, ha, h'⟩
      · exact Or.inr ⟨rfl, a, ha, h'⟩

theorem lookup_mem {α : Type} {d : List (Str × α)} {k : Str} {v : α} (h : d.lookup k = some v) : (k, v) ∈ d := by
  induction d with
  | nil => cases h
  | cons x d ih =>
    rw [List.lookup_cons] at h
    split at h
    · next hk =>
      cases x
      simp only [beq_iff_eq] at hk
      simp only [Option.some.injEq] at h
      subst hk h
      simp
    · exact List.mem_cons_of_mem _ (ih h)

theorem arch_names {lower upper : Str → Str} {data : Bytes} {i : Info} (h : info lower upper data = .ok i) :
    ∀ x ∈ i.archived, x.2.name = x.1 := by
  unfold info at h
  rw [bind_eq_ok] at h
  obtain ⟨bs, hb, h⟩ := h
  rw [bind_eq_ok] at h
  obtain ⟨j, hj, h⟩ := h
  simp only [pure_eq_ok, Except.ok.injEq] at h
  obtain ⟨_, _, _, _, h5, _⟩ := infoLoop_fields bs hj
  have hgen : ∀ (ps : List FileFields) (i : Info), (∀ x ∈ i.archived, x.2.name = x.1) → ∀ x ∈ (ps.foldl infoPacked i).archived, x.2.name = x.1 := by
    intro ps
    induction ps with
    | nil => intro i hi; exact hi
    | cons f ps ih =>
      intro i hi
      rw [List.foldl_cons]
      apply ih
      intro x hx
      have hname : ((i.archived.lookup f.name).getD (newArch f)).name = f.name := by
        cases hl : i.archived.lookup f.name with
        | none => rfl
        | some a => exact hi _ (lookup_mem hl)
      unfold infoPacked dictSet at hx
      dsimp only at hx
      split at hx
      · obtain ⟨y, hy, rfl⟩ := List.mem_map.1 hx
        split
        · exact hname
        · exact hi y hy
      · rcases List.mem_append.1 hx with hx | hx
        · exact hi x hx
        · rw [List.mem_singleton.1 hx]
          exact hname
  rw [← h]
  show ∀ x ∈ j.archived, _
  rw [h5]
  exact hgen _ _ (by simp)

theorem arch_nodup {lower upper : Str → Str} {data : Bytes} {i : Info} (h : info lower upper data = .ok i) :
    (i.archived.map (·.1)).Nodup := by
  unfold info at h
  rw [bind_eq_ok] at h
  obtain ⟨bs, hb, h⟩ := h
  rw [bind_eq_ok] at h
  obtain ⟨j, hj, h⟩ := h
  simp only [pure_eq_ok, Except.ok.injEq] at h
  obtain ⟨_, _, _, _, h5, _⟩ := infoLoop_fields bs hj
  have hgen : ∀ (ps : List FileFields) (i : Info), (i.archived.map (·.1)).Nodup → ((ps.foldl infoPacked i).archived.map (·.1)).Nodup := by
    intro ps
    induction ps with
    | nil => intro i hi; exact hi
    | cons f ps ih =>
      intro i hi
      rw [List.foldl_cons]
      apply ih
      unfold infoPacked
      dsimp only
      generalize ({ name := _, size := _, compressed := _, crc := _ } : ArchInfo) = v
      by_cases hk : f.name ∈ i.archived.map (·.1)
      · rw [dictSet_keys hk]
        exact hi
      · have : (i.archived.any fun x => x.1 == f.name) = false := by
          rw [Bool.eq_false_iff]
          intro ha
          obtain ⟨x, hx, hx2⟩ := List.any_eq_true.1 ha
          exact hk (List.mem_map.2 ⟨x, hx, by simpa using hx2⟩)
        unfold dictSet
        rw [this]
        simp only [Bool.false_eq_true, if_false, List.map_append, List.map_cons, List.map_nil]
        rw [List.nodup_append]
        refine ⟨hi, by simp, ?_⟩
        intro a ha b hb hab
        rw [List.mem_singleton.1 hb] at hab
        exact hk (hab ▸ ha)
  rw [← h]
  show (j.archived.map _).Nodup
  rw [h5]
  exact hgen _ _ (by simp)

/-- C73: "All files OK!" means that for each file that the volumes hold, with the checksum that the last of its
headers gives, the extracted file has that checksum (unless that is zero). -/
theorem verify_sound {lower upper : Str → Str} {srr : Bytes} {fs : FS} {below : List Path} {folder : Str} {auto : Bool} {bs : List Block}
    (hb : readAll srr = .ok bs) (h : verifyExtracted lower upper srr fs below folder auto = .ok 0) :
    ∀ name last, (partsOf name bs).getLast? = some last → last.fileCrc ≠ 0 →
      ∃ size compressed, Verified fs below folder auto ⟨name, size, compressed, last.fileCrc⟩ := by
  unfold verifyExtracted at h
  rw [bind_eq_ok] at h
  obtain ⟨i, hi, h⟩ := h
  simp only [pure_eq_ok, Except.ok.injEq] at h
  intro name last hlast h0
  obtain ⟨_, h2⟩ := info_archived hb hi name
  cases hp : partsOf name bs with
  | nil => rw [hp] at hlast; cases hlast
  | cons first t =>
    obtain ⟨a, ha, hc, _⟩ := h2 first last (by rw [hp]; rfl) hlast
    have hm := lookup_mem ha
    have hname := arch_names hi _ hm
    have hne : i.archived.map (·.2) ≠ [] := by
      intro he
      have : a ∈ i.archived.map (·.2) := List.mem_map.2 ⟨_, hm, rfl⟩
      rw [he] at this
      cases this
    have := ((verify_status fs below folder auto _).2 hne).1.1 h a (List.mem_map.2 ⟨_, hm, rfl⟩) (by rw [hc]; exact h0)
    refine ⟨a.size, a.compressed, ?_⟩
    cases a
    simp only at hc hname
    subst hc hname
    exact this

/-- C73: when the extracted files are in place and have the checksums of the last headers, the answer is that all
is well. -/
theorem verify_complete {lower upper : Str → Str} {srr : Bytes} {fs : FS} {below : List Path} {folder : Str} {auto : Bool} {bs : List Block} {i : Info}
    (hb : readAll srr = .ok bs) (hi : info lower upper srr = .ok i) {name0 : Str} (hsome : partsOf name0 bs ≠ [])
    (hall : ∀ name last, (partsOf name bs).getLast? = some last → last.fileCrc ≠ 0 → HasCrc fs (posixJoin2 folder (withSlashes name)) last.fileCrc) :
    verifyExtracted lower upper srr fs below folder auto = .ok 0 := by
  have hone := arch_nodup hi
  unfold verifyExtracted
  rw [hi, ok_bind, pure_eq_ok]
  congr 1
  have hne : i.archived.map (·.2) ≠ [] := by
    obtain ⟨_, h2⟩ := info_archived hb hi name0
    cases hp : partsOf name0 bs with
    | nil => exact absurd hp hsome
    | cons first t =>
      obtain ⟨a, ha, _⟩ := h2 first ((first :: t).getLast (by simp)) (by rw [hp]; rfl) (by rw [hp]; exact List.getLast?_eq_some_getLast (by simp))
      intro he
      have : a ∈ i.archived.map (·.2) := List.mem_map.2 ⟨_, lookup_mem ha, rfl⟩
      rw [he] at this
      cases this
  refine ((verify_status fs below folder auto _).2 hne).1.2 ?_
  intro a ha h0
  obtain ⟨x, hx, rfl⟩ := List.mem_map.1 ha
  have hname := arch_names hi x hx
  obtain ⟨h1, h2⟩ := info_archived hb hi x.1
  have hl : i.archived.lookup x.1 = some x.2 := by
    clear h1 h2 ha hne hsome hall hi hb
    generalize i.archived = l at hx hone
    induction l with
    | nil => cases hx
    | cons y l ih =>
      rw [List.lookup_cons]
      simp only [List.map_cons, List.nodup_cons] at hone
      rcases List.mem_cons.1 hx with rfl | hx
      · simp
      · have : (x.1 == y.1) = false := by
          rw [beq_eq_false_iff_ne]
          intro he
          exact hone.1 (he ▸ List.mem_map.2 ⟨x, hx, rfl⟩)
        rw [this]
        exact ih hx hone.2
  cases hp : partsOf x.1 bs with
  | nil => rw [h1 hp] at hl; cases hl
  | cons first t =>
    have hlast : (partsOf x.1 bs).getLast? = some ((first :: t).getLast (by simp)) := by rw [hp]; exact List.getLast?_eq_some_getLast (by simp)
    obtain ⟨a, ha, hc, _⟩ := h2 first _ (by rw [hp]; rfl) hlast
    rw [hl] at ha
    obtain rfl := Option.some.inj ha
    left
    unfold extractedAt
    rw [hname, hc]
    exact hall x.1 _ hlast (by rw [← hc]; exact h0)

/-! ### Examples -/

/-- A volume with a stored file `d\\x` of three bytes and its checksum. -/
def exChecked (data : Bytes) (crc : Bytes) : Bytes :=
  [0x52, 0x61, 0x72, 0x21, 0x1A, 0x07, 0x00] ++ [0, 0, 0x73, 0, 0, 13, 0, 0, 0, 0, 0, 0, 0] ++
    ([0, 0, 0x74, 0, 0x80, 35, 0, UInt8.ofNat data.length, 0, 0, 0, UInt8.ofNat data.length, 0, 0, 0, 0] ++ crc ++
      [0, 0, 0, 0, 20, 0x30, 3, 0, 0, 0, 0, 0, 0x64, 0x5C, 0x78] ++ data)

/-- Its SRR. -/
def exCheckedSrr (data crc : Bytes) : Res Bytes :=
  createSrr exDig id 5 (fun p => if p = str "/a" then some (exChecked data crc) else none)
    (str "app") [] [⟨str "/a", str "/a", str "a.rar"⟩] false false

set_option maxRecDepth 100000

/-- A good file, a corrupt one, a missing one, and one that was renamed. -/
example : (exCheckedSrr [1, 2, 3, 4] [0xCD, 0xFB, 0x3C, 0xB6]).isOk = true ∧
    (exCheckedSrr [1, 2, 3, 4] [0xCD, 0xFB, 0x3C, 0xB6] >>= fun srr => verifyExtracted exLower id srr
      (fun p => if p = str "/o/d/x" then some [1, 2, 3, 4] else none) [] (str "/o") false) = .ok 0 ∧
    (exCheckedSrr [1, 2, 3, 4] [0xCD, 0xFB, 0x3C, 0xB6] >>= fun srr => verifyExtracted exLower id srr
      (fun p => if p = str "/o/d/x" then some [1, 2, 3, 5] else none) [] (str "/o") false) = .ok 1 ∧
    (exCheckedSrr [1, 2, 3, 4] [0xCD, 0xFB, 0x3C, 0xB6] >>= fun srr => verifyExtracted exLower id srr
      (fun p => if p = str "/o/y" then some [1, 2, 3, 4] else none) [str "/o/y"] (str "/o") false) = .ok 2 ∧
    (exCheckedSrr [1, 2, 3, 4] [0xCD, 0xFB, 0x3C, 0xB6] >>= fun srr => verifyExtracted exLower id srr
      (fun p => if p = str "/o/y" then some [1, 2, 3, 4] else none) [str "/o/y"] (str "/o") true) = .ok 0 := by
  refine ⟨?_, ?_, ?_, ?_, ?_⟩ <;> decide +kernel

/-- C73, violation: a file with the checksum 0 is not looked at.  It is missing, and the answer is that all
files are OK. -/
theorem verify_crc_zero : (crc32 [0x9D, 0x0A, 0xD9, 0x6D] 0).toNat = 0 ∧
    (exCheckedSrr [0x9D, 0x0A, 0xD9, 0x6D] [0, 0, 0, 0] >>= fun srr => verifyExtracted exLower id srr (fun _ => none) [] (str "/o") false) = .ok 0 := by
  constructor <;> decide +kernel

end Rescene.Props
