import Verif.Spec.AutoSfvs
import Verif.Lemmas.Release
import Verif.Lemmas.Blocks
namespace Rescene
open Spec

theorem saysAny_iff {words : List String} {s : Str} : saysAny words s = true ↔ Says words s := by
  unfold saysAny Says
  rw [List.any_eq_true]
  simp only [isIn_iff]

theorem sameWord_plain {w : Str} (h : ∀ c ∈ w, c < 0x41 ) : ∀ {u : Str}, SameWord u w ↔ u = w := by
  induction w with
  | nil => intro u; cases u <;> simp [SameWord]
  | cons x w ih =>
    intro u
    cases u with
    | nil => simp [SameWord]
    | cons c u =>
      simp only [SameWord, List.cons.injEq, ih fun y hy => h y (by simp [hy])]
      have hx := h x (by simp)
      unfold SameLetter lowerA
      rw [show 'A'.toNat = 0x41 from rfl, show 'Z'.toNat = 0x5A from rfl]
      constructor
      · rintro ⟨h1, h2⟩
        refine ⟨?_, h2⟩
        rcases h1 with h1 | h1 | h1 | h1
        · split at h1 <;> omega
        · omega
        · omega
        · omega
      · rintro ⟨rfl, h2⟩
        refine ⟨Or.inl ?_, h2⟩
        rw [if_neg (by omega)]

theorem musicName_iff {dig : Nat → Bool} {s : Str} : musicName dig s = true ↔ MusicName dig s := by
  unfold musicName MusicName
  rw [test_iff]
  have l1 := lang_seq (lang_word (s := str "00") (by decide)) (lang_seq (lang_opt (lang_word (s := str "0") (by decide))) (lang_word (s := str "-") (by decide)))
  have l2 := lang_seq (lang_many rxDot) (lang_seq (lang_alt (lang_seq (lang_word (s := str "cd") (by decide)) (lang_cls dig)) (lang_word (s := str "flac") (by decide)))
    (lang_many rxDot))
  simp only [mem_alt]
  rw [exists_or]
  have h1 : (∃ z, z ∈ (Rx.seq .bos (.seq (rxWord (str "00")) (.seq (rxOpt (rxWord (str "0"))) (rxWord (str "-"))))).ends ([], s)) ↔
      ∃ t, s = str "00-" ++ t ∨ s = str "000-" ++ t := by
    simp only [mem_seq (x := .bos), mem_bos]
    constructor
    · rintro ⟨z, w, ⟨_, rfl⟩, hz⟩
      obtain ⟨u, v, rfl, ⟨a, b, rfl, ha, c, d, rfl, hc, hd⟩, _⟩ := (l1 _ _ _).1 hz
      rw [sameWord_plain (by decide)] at ha hd
      rw [sameWord_plain (by decide)] at hc
      subst ha hd
      refine ⟨v, ?_⟩
      rcases hc with rfl | rfl
      · right; rfl
      · left; rfl
    · rintro ⟨t, h⟩
      have same : ∀ w : Str, (∀ c ∈ w, c < 0x41) → SameWord w w := fun w hw => (sameWord_plain hw).2 rfl
      rcases h with rfl | rfl
      · exact ⟨_, _, ⟨trivial, rfl⟩, (l1 _ _ _).2 ⟨str "00-", t, rfl, ⟨str "00", str "-", rfl, same _ (by decide), [], str "-", rfl, Or.inr rfl, same _ (by decide)⟩, rfl⟩⟩
      · exact ⟨_, _, ⟨trivial, rfl⟩, (l1 _ _ _).2 ⟨str "000-", t, rfl, ⟨str "00", str "0-", rfl, same _ (by decide), str "0", str "-", rfl, Or.inl (same _ (by decide)), same _ (by decide)⟩, rfl⟩⟩
  rw [h1]
  refine or_congr Iff.rfl ?_
  constructor
  · rintro ⟨z, hz⟩
    obtain ⟨u, v, rfl, ⟨a, _, rfl, ha, w, b, rfl, hw, hb⟩, _⟩ := (l2 _ _ _).1 hz
    refine ⟨a, w, b ++ v, by simp, rxDot_iff.1 ha, ?_⟩
    rcases hw with ⟨k, _, rfl, hk, d, rfl, hd⟩ | hw
    · exact Or.inr ⟨k, d, rfl, hk, hd⟩
    · exact Or.inl hw
  · rintro ⟨a, w, b, rfl, ha, hw⟩
    refine ⟨_, (l2 _ _ _).2 ⟨a ++ w, b, by simp, ⟨a, w, rfl, rxDot_iff.2 ha, w, [], by simp, ?_, by simp⟩, rfl⟩⟩
    rcases hw with hw | ⟨k, d, rfl, hk, hd⟩
    · exact Or.inr hw
    · exact Or.inl ⟨k, [d], rfl, hk, d, rfl, hd⟩

theorem subsCd_iff {dig : Nat → Bool} {s : Str} : subsCd dig s = true ↔ SubsDisk dig s := by
  unfold subsCd SubsDisk
  rw [test_iff]
  have l := fun x => lang_many rxDot x
  have l1 := lang_word (s := str "subs") (by decide)
  have l2 := lang_opt (lang_cls rxDot)
  have l3 := lang_word (s := str "cd") (by decide)
  have l4 := lang_cls dig
  constructor
  · rintro ⟨z, hz⟩
    obtain ⟨z1, h1, hz⟩ := mem_seq.1 hz
    obtain ⟨a, v, rfl, ha, rfl⟩ := (lang_many rxDot _ _ _).1 h1
    obtain ⟨z2, h2, hz⟩ := mem_seq.1 hz
    obtain ⟨b, v, rfl, hb, rfl⟩ := (l1 _ _ _).1 h2
    obtain ⟨z3, h3, hz⟩ := mem_seq.1 hz
    obtain ⟨m, v, rfl, hm, rfl⟩ := (l2 _ _ _).1 h3
    obtain ⟨z4, h4, hz⟩ := mem_seq.1 hz
    obtain ⟨k, v, rfl, hk, rfl⟩ := (l3 _ _ _).1 h4
    obtain ⟨z5, h5, hz⟩ := mem_seq.1 hz
    obtain ⟨d, v, rfl, ⟨d, rfl, hd⟩, rfl⟩ := (l4 _ _ _).1 h5
    obtain ⟨he, _⟩ := mem_eos.1 hz
    refine ⟨a, b, m, k, d, v, by simp, rxDot_iff.1 ha, hb, ?_, hk, hd, he⟩
    rcases hm with ⟨c, rfl, hc⟩ | rfl
    · exact Or.inr ⟨c, rfl, by simpa [rxDot] using hc⟩
    · exact Or.inl rfl
  · rintro ⟨a, b, m, k, d, e, rfl, ha, hb, hm, hk, hd, he⟩
    have hm' : (∃ c, m = [c] ∧ rxDot c = true) ∨ m = [] := by
      rcases hm with rfl | ⟨c, rfl, hc⟩
      · exact Or.inr rfl
      · exact Or.inl ⟨c, rfl, by simpa [rxDot] using hc⟩
    exact ⟨_, mem_seq.2 ⟨_, (lang_many rxDot _ _ _).2 ⟨a, b ++ (m ++ (k ++ ([d] ++ e))), by simp, rxDot_iff.2 ha, rfl⟩,
      mem_seq.2 ⟨_, (l1 _ _ _).2 ⟨b, m ++ (k ++ ([d] ++ e)), rfl, hb, rfl⟩,
      mem_seq.2 ⟨_, (l2 _ _ _).2 ⟨m, k ++ ([d] ++ e), rfl, hm', rfl⟩,
      mem_seq.2 ⟨_, (l3 _ _ _).2 ⟨k, [d] ++ e, rfl, hk, rfl⟩,
      mem_seq.2 ⟨_, (l4 _ _ _).2 ⟨[d], e, rfl, ⟨d, rfl, hd⟩, rfl⟩, mem_eos.2 ⟨he, rfl⟩⟩⟩⟩⟩⟩⟩

theorem subsName_iff {dig : Nat → Bool} {lower : Str → Str} {rel name : Str} : subsName dig lower rel name = true ↔ SubsName dig lower rel name := by
  unfold subsName SubsName
  simp only [Bool.or_eq_true, Bool.and_eq_true, Bool.not_eq_true', ← Bool.not_eq_true, saysAny_iff, musicName_iff, not_or]

theorem proofOut_iff {w : SfvWorld} {lower : Str → Str} {sfv : Str} {b : Bool} (h : proofOut w lower sfv = .ok b) : b = true ↔ ProofOnly w lower sfv := by
  unfold ProofOnly
  match hl : w.listed sfv with
  | [] =>
    simp only [proofOut, hl, Except.ok.injEq] at h
    simp [← h]
  | _ :: _ :: _ =>
    simp only [proofOut, hl, Except.ok.injEq] at h
    simp [← h]
  | [f] =>
    simp only [proofOut, hl] at h
    simp only [List.cons.injEq, and_true, exists_eq_left']
    by_cases hr : str ".rar" <:+ posixJoin2 (dirname sfv) f
    · rw [show endsWith (posixJoin2 (dirname sfv) f) (str ".rar") = true from List.isSuffixOf_iff_suffix.2 hr] at h
      simp only [Bool.not_true, Bool.false_eq_true, if_false] at h
      cases ha : w.archive (posixJoin2 (dirname sfv) f) with
      | none =>
        simp only [ha, Except.ok.injEq] at h
        simp [← h]
      | some r =>
        cases r with
        | error e =>
          rw [ha] at h
          cases e <;> simp at h <;> simp [← h]
        | ok names =>
          simp only [ha, Except.ok.injEq] at h
          subst h
          cases hg : names.getLast? with
          | none => simp [hr, hg]
          | some n =>
            simp only [hr, not_true, false_or, reduceCtorEq, Option.some.injEq, Except.ok.injEq, imageName, List.contains_iff_mem, false_or]
            constructor
            · intro h; exact ⟨names, n, rfl, hg, h⟩
            · rintro ⟨_, _, rfl, hg', h⟩
              rw [hg, Option.some.injEq] at hg'
              subst hg'
              exact h
    · have : endsWith (posixJoin2 (dirname sfv) f) (str ".rar") = false := by
        rw [← Bool.not_eq_true, endsWith, List.isSuffixOf_iff_suffix]
        exact hr
      rw [this] at h
      simp only [Bool.not_false, if_true, Except.ok.injEq] at h
      simp [← h, hr]

theorem wantedSfv_iff {w : SfvWorld} {dig : Nat → Bool} {lower : Str → Str} {rel sfv : Str} {b : Bool} (h : wantedSfv w dig lower rel sfv = .ok b) :
    b = true ↔ ¬ Unwanted w dig lower rel sfv := by
  unfold wantedSfv at h
  unfold Unwanted
  simp only
  by_cases h1 : subsName dig lower rel (basename sfv) = true
  · rw [if_pos h1] at h
    simp only [Except.ok.injEq] at h
    simp [← h, subsName_iff.1 h1]
  rw [if_neg h1] at h
  rw [subsName_iff] at h1
  simp only at h
  generalize lower (basename (dirname sfv)) = folder at h ⊢
  by_cases h2 : partFolders.contains folder = true
  · rw [if_pos h2] at h
    have h2' : PartFolder folder := by rwa [List.contains_iff_mem] at h2
    simp only [Except.ok.injEq] at h
    simp [← h, h2']
  rw [if_neg h2] at h
  have h2' : ¬ PartFolder folder := fun hp => h2 (List.contains_iff_mem.2 hp)
  obtain ⟨out, h3, h⟩ := bind_eq_ok.1 h
  have h3' : out = true ↔ (folder = str "proof" ∨ folder = str "proofs") ∧ ProofOnly w lower sfv := by
    unfold proofTest at h3
    split at h3
    · rename_i hp
      rw [proofOut_iff h3]
      simp [hp]
    · rename_i hp
      simp only [Except.ok.injEq] at h3
      simp [← h3, hp]
  cases out with
  | true =>
    simp only [if_true, Except.ok.injEq] at h
    simp [← h, h3'.1 rfl]
  | false =>
    have h3'' : ¬ ((folder = str "proof" ∨ folder = str "proofs") ∧ ProofOnly w lower sfv) := fun hc => absurd (h3'.2 hc) (by simp)
    simp only [Bool.false_eq_true, if_false] at h
    by_cases h4 : subsCd dig (dirname sfv) = true
    · rw [if_pos h4] at h
      simp only [Except.ok.injEq] at h
      simp [← h, subsCd_iff.1 h4]
    rw [if_neg h4] at h
    rw [subsCd_iff] at h4
    have fix : b = true ↔ ¬ FixFolder rel folder := by
      unfold FixFolder
      have e : ∀ x : String, (isIn (str x) folder && !isIn (str x) rel) = true ↔ str x <:+: folder ∧ ¬ str x <:+: rel := by
        intro x
        rw [Bool.and_eq_true, isIn_iff, Bool.not_eq_true', ← Bool.not_eq_true, isIn_iff]
      simp only [List.mem_cons, List.not_mem_nil, or_false, exists_eq_or_imp, exists_eq_left, not_or, e] at h ⊢
      split at h
      · rename_i hc
        simp only [Except.ok.injEq] at h
        simp [← h, hc]
      · rename_i hc1
        split at h
        · rename_i hc
          simp only [Except.ok.injEq] at h
          simp [← h, hc]
        · rename_i hc2
          split at h
          · rename_i hc
            simp only [Except.ok.injEq] at h
            simp [← h, hc]
          · rename_i hc3
            simp only [Except.ok.injEq] at h
            rw [← h]
            exact ⟨fun _ => ⟨hc1, hc2, hc3⟩, fun _ => rfl⟩
    rw [fix]
    constructor
    · intro hf hu
      rcases hu with hu | hu | hu | hu | hu
      · exact h1 hu
      · exact h2' hu
      · exact h3'' hu
      · exact h4 hu
      · exact hf hu
    · intro hu hf
      exact hu (Or.inr (Or.inr (Or.inr (Or.inr hf))))

def okTrue : Res Bool → Bool
  | .ok b => b
  | .error _ => false

theorem filterRes_ok {α : Type} {p : α → Res Bool} {l r : List α} (h : filterRes p l = .ok r) :
    ∃ q : α → Bool, (∀ x ∈ l, p x = .ok (q x)) ∧ r = l.filter q := by
  induction l generalizing r with
  | nil =>
    simp only [filterRes, Except.ok.injEq] at h
    exact ⟨fun _ => true, by simp, by simp [← h]⟩
  | cons x l ih =>
    simp only [filterRes] at h
    obtain ⟨b, hb, h⟩ := bind_eq_ok.1 h
    obtain ⟨r', hr, h⟩ := bind_eq_ok.1 h
    obtain ⟨_, hq, rfl⟩ := ih hr
    refine ⟨fun y => okTrue (p y), ?_, ?_⟩
    · intro y hy
      rcases List.mem_cons.1 hy with rfl | hy
      · simp [hb, okTrue]
      · simp [hq y hy, okTrue]
    · simp only [Except.ok.injEq] at h
      rw [← h, List.filter_cons, hb]
      have : ∀ (q' : α → Bool), (∀ y ∈ l, p y = .ok (q' y)) → l.filter q' = l.filter fun y => okTrue (p y) := by
        intro q' hq'
        apply List.filter_congr
        intro y hy
        simp [hq' y hy, okTrue]
      rw [this _ hq, okTrue]

theorem filterRes_of {α : Type} {p : α → Res Bool} {q : α → Bool} {l : List α} (h : ∀ x ∈ l, p x = .ok (q x)) : filterRes p l = .ok (l.filter q) := by
  induction l with
  | nil => rfl
  | cons x l ih =>
    simp only [filterRes, h x (by simp), ih fun y hy => h y (by simp [hy]), ok_bind, List.filter_cons]

end Rescene
