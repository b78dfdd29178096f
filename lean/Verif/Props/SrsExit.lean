import Verif.Spec.SrsExit
import Verif.Lemmas.SrsExit
import Verif.Props.SrsMain
/-
C85: a sample for which no SRS can be made does not stop pyrescene.
-/
namespace Rescene.Props
open Rescene Rescene.Spec

theorem find_sig {α : Type} (l : List (Nat × α)) (g : α → Bytes) :
    ((l.map fun t => (t.1, g t.2)).find? (·.1 == 1)).map (·.2) = (l.find? (·.1 == 1)).map fun t => g t.2 := by
  induction l with
  | nil => rfl
  | cons a l ih =>
    simp only [List.map_cons, List.find?_cons]
    split <;> simp_all

/-- What an SRS that was made says about the sample. -/
theorem srsMake_facts {dig : Nat → Bool} {lower : Str → Str} {app path : Str} {sample srs : Bytes} {fp : Option (Nat × Bytes)} {big : Bool}
    {check : Option MediaFile} (h : srsMake dig lower app path sample fp big check = .ok srs) :
    ∃ k tr c, MediaFile.kind dig lower ⟨path, sample, none⟩ = .ok k ∧ k ≠ .unknown ∧ ¬ (sample.length ≥ 0x80000000 ∧ big = false) ∧
      profileOf k sample = .ok tr ∧ tr ≠ [] ∧ vobCheck dig lower k path ((tr.find? (·.1 == 1)).map (·.2)) check = .ok c := by
  unfold srsMake at h
  simp only [bind_eq_ok] at h
  obtain ⟨k, hk, h⟩ := h
  cases k
  case m2ts => simp at h
  case unknown => simp at h
  all_goals
    simp only [bind_eq_ok] at h
    obtain ⟨x, hx, c, hc, h⟩ := h
    refine ⟨_, _, c, hk, by simp, ?_, (by unfold profileOf; simp only [hx]; rfl), ?_, (by rw [find_sig]; exact hc)⟩
  · intro hb; unfold srsMkvCreate at h; rw [if_pos hb] at h; simp at h
  · intro hb; unfold srsMkvCreate at h; split at h
    · simp at h
    · simp only [hx, ok_bind] at h
      rw [if_pos (by simpa using hb)] at h; simp at h
  · intro hb; unfold srsAviCreate at h; rw [if_pos hb] at h; simp at h
  · intro hb; unfold srsAviCreate at h; split at h
    · simp at h
    · simp only [hx, ok_bind] at h
      rw [if_pos (by simpa using hb)] at h; simp at h
  · intro hb; unfold srsMp4Create at h; rw [if_pos hb] at h; simp at h
  · intro hb; unfold srsMp4Create at h; split at h
    · simp at h
    · simp only [hx, ok_bind] at h
      rw [if_pos (by simpa using hb)] at h; simp at h
  · intro hb; unfold srsWmvCreate at h; rw [if_pos hb] at h; simp at h
  · intro hb; unfold srsWmvCreate at h; split at h
    · simp at h
    · simp only [hx, ok_bind] at h
      rw [if_pos (by simpa using hb)] at h; simp at h
  · intro hb; unfold srsFlacCreate at h; rw [if_pos hb] at h; simp at h
  · intro hb; unfold srsFlacCreate at h; split at h
    · simp at h
    · simp only [hx, ok_bind] at h
      rw [if_pos (by simpa using hb)] at h; simp at h
  · intro hb; unfold srsMp3Create at h; rw [if_pos hb] at h; simp at h
  · intro hb; unfold srsMp3Create at h; split at h
    · simp at h
    · simp only [hx, ok_bind] at h
      rw [if_pos (by simpa using hb)] at h; simp at h
  · intro hb; unfold srsCreate at h; rw [if_pos hb] at h; simp at h
  · intro hb
    unfold streamProfile at hx
    simp only [bind_eq_ok, pure_eq_ok] at hx
    obtain ⟨_, _, hx⟩ := hx
    injection hx with hx
    rw [← hx] at hb
    simp at hb

/-! ### A call of srs -/

/-- C85: making an SRS gets to the end exactly when the SRS can be made: nothing else is reported as a success, and no SRS that
could be made is refused. -/
theorem make_ended (dig : Nat → Bool) (lower : Str → Str) (c : SrsCall) : srsMakeBody dig lower c = .ended ↔ Makes dig lower c := by
  unfold Makes
  constructor
  · intro h
    unfold srsMakeBody at h
    split at h
    · simp at h
    · simp at h
    · rename_i k hk hkind
      split at h
      · simp at h
      · split at h
        · simp at h
        · rename_i hnf
          split at h
          · simp at h
          · simp at h
          · rename_i tr htr
            split at h
            · simp at h
            · rename_i hfp
              split at h
              · simp at h
              · split at h
                · simp at h
                · rename_i r hr
                  refine ⟨hnf, ?_, ?_⟩
                  · intro k' hk' hm
                    rw [hkind] at hk'
                    injection hk' with hk'
                    subst hk'
                    rw [if_pos hm] at hfp
                    exact hfp
                  · unfold srsCheckBody at h
                    dsimp only at h
                    split at h
                    · split at h
                      · exact ⟨_, by assumption⟩
                      · simp at h
                    · split at h
                      · simp at h
                      · split at h
                        · simp at h
                        · split at h
                          · exact ⟨_, by assumption⟩
                          · simp at h
                          · simp at h
  · rintro ⟨hnf, hfp, srs, h⟩
    obtain ⟨k, tr, cc, hkind, hk, hbig, htr, hne, hv⟩ := srsMake_facts h
    unfold srsMakeBody
    rw [hkind]
    have hsome : (if k = .flac ∨ k = .mp3 then c.fpFails else none) = none := by
      split
      · exact hfp k hkind (by assumption)
      · rfl
    unfold vobCheck at hv
    simp only [bind_eq_ok] at hv
    obtain ⟨r, hr, hv⟩ := hv
    have hend : srsCheckBody dig lower c k (if r then none else c.check) = .ended := by
      unfold srsCheckBody
      dsimp only
      rw [h]
      split
      · rfl
      · rename_i m hm
        cases r with
        | true => simp at hm
        | false =>
          simp only [Bool.false_eq_true, if_false] at hm hv
          rw [hm] at hv
          unfold checkFile at hv
          dsimp only at hv
          simp only [bind_eq_ok] at hv
          obtain ⟨mk, hmk, hv⟩ := hv
          rw [hmk]
          dsimp only
          rw [if_neg]
          rintro ⟨h1, h2⟩
          rw [if_pos h1, if_pos h2] at hv
          simp at hv
    cases k
    case unknown => exact absurd rfl hk
    all_goals
      dsimp only
      rw [if_neg hbig, hnf]
      dsimp only
      rw [htr]
      dsimp only
      rw [hsome]
      dsimp only
      rw [if_neg hne, hr]
      exact hend

/-- The reports of the command itself. -/
theorem make_exits {dig : Nat → Bool} {lower : Str → Str} {c : SrsCall} {s : Nat} {msg : Str} (h : srsMakeBody dig lower c = .exits s msg) :
    s ≠ 0 ∧ (msg = unknownMsg (basename c.path) c.size ∨ msg = bigMsg ∨ (∃ f, c.noFolder = some f ∧ msg = folderMsg f) ∨
      (∃ k, msg = incompleteMsg k) ∨ msg = noTracksMsg ∨ msg = formatMsg ∨ msg = locateMsg c.track) := by
  unfold srsMakeBody at h
  split at h
  · simp at h
  · injection h with h1 h2
    exact ⟨by omega, .inl h2.symm⟩
  · split at h
    · injection h with h1 h2
      exact ⟨by omega, .inr (.inl h2.symm)⟩
    · split at h
      · injection h with h1 h2
        exact ⟨by omega, .inr (.inr (.inl ⟨_, by assumption, h2.symm⟩))⟩
      · split at h
        · injection h with h1 h2
          exact ⟨by omega, .inr (.inr (.inr (.inl ⟨_, h2.symm⟩)))⟩
        · simp at h
        · split at h
          · simp at h
          · split at h
            · injection h with h1 h2
              exact ⟨by omega, .inr (.inr (.inr (.inr (.inl h2.symm))))⟩
            · split at h
              · simp at h
              · unfold srsCheckBody at h
                dsimp only at h
                split at h
                · split at h <;> simp at h
                · split at h
                  · simp at h
                  · split at h
                    · injection h with h1 h2
                      exact ⟨by omega, .inr (.inr (.inr (.inr (.inr (.inl h2.symm)))))⟩
                    · split at h
                      · simp at h
                      · injection h with h1 h2
                        exact ⟨by omega, .inr (.inr (.inr (.inr (.inr (.inr h2.symm)))))⟩
                      · simp at h

theorem handle_false (c : SrsExc) (msg : Str) : srsHandle false c msg ≠ .exited 0 ∧ srsHandle false c msg ≠ .returned := by
  unfold srsHandle pexit
  cases c <;> dsimp only <;> (repeat' split) <;> simp_all

/-- C85: the exit status of the command is 0 exactly when the SRS was made. -/
theorem status_zero (dig : Nat → Bool) (lower : Str → Str) (c : SrsCall) :
    mainEnd false (srsMakeBody dig lower c) = .exited 0 ↔ Makes dig lower c := by
  rw [← make_ended]
  cases hb : srsMakeBody dig lower c with
  | ended => simp [mainEnd, pexit]
  | exits s msg => simp [mainEnd, (make_exits hb).1]
  | raises e msg => simp [mainEnd, (handle_false e msg).1]

theorem handle_true (c : SrsExc) (msg : Str) : srsHandle true c msg ≠ .returned ∧ ∀ s, srsHandle true c msg ≠ .exited s := by
  unfold srsHandle pexit
  cases c <;> dsimp only <;> (repeat' split) <;> simp_all

/-- C85: for a program that calls it, the call returns exactly when the SRS was made. -/
theorem call_returns (dig : Nat → Bool) (lower : Str → Str) (c : SrsCall) :
    mainEnd true (srsMakeBody dig lower c) = .returned ↔ Makes dig lower c := by
  rw [← make_ended]
  cases hb : srsMakeBody dig lower c with
  | ended => simp [mainEnd, pexit]
  | exits s msg => simp [mainEnd, (make_exits hb).1, (handle_true .value msg).1]
  | raises e msg => simp [mainEnd, (handle_true e msg).1]

theorem handle_value (c : SrsExc) (msg : Str) : (∃ m, srsHandle true c msg = .raised .value m) ↔
    c ≠ .keyboard ∧ ((c = .value ∨ c = .assertion) → str "Aborting" <:+ srsFault msg) := by
  unfold srsHandle pexit
  by_cases ha : str "Aborting" <:+ srsFault msg
  · cases c <;> simp [ha]
    all_goals (repeat' split) <;> first | exact ⟨_, rfl⟩ | skip
  · cases c <;> simp [ha]
    all_goals (repeat' split) <;> first | exact ⟨_, rfl⟩ | skip

theorem handle_type (c : SrsExc) (msg : Str) : (∃ m, srsHandle true c msg = .raised .type m) ↔
    (c = .value ∨ c = .assertion) ∧ ¬ str "Aborting" <:+ srsFault msg := by
  unfold srsHandle pexit
  by_cases ha : str "Aborting" <:+ srsFault msg
  · cases c <;> simp [ha]
    all_goals (repeat' split) <;> simp
  · cases c <;> simp [ha]
    all_goals (repeat' split) <;> simp

/-- C85: which failures reach the caller as the ValueError it waits for: exceptions of the classes with a handler of their own,
and texts that end with "Aborting". -/
theorem answers_iff (body : SrsBody) : (∃ msg, mainEnd true body = .raised .value msg) ↔
    (∃ s msg, body = .exits s msg ∧ s ≠ 0 ∧ str "Aborting" <:+ srsFault msg) ∨
      (∃ c msg, body = .raises c msg ∧ c ≠ .keyboard ∧ ((c = .value ∨ c = .assertion) → str "Aborting" <:+ srsFault msg)) := by
  cases body with
  | ended => simp [mainEnd, pexit]
  | exits s msg =>
    by_cases hs : s = 0
    · subst hs; simp only [mainEnd]; constructor
      · rintro ⟨m, h⟩; simp at h
      · rintro (⟨s, m, h, hs, _⟩ | ⟨c, m, h, _⟩)
        · injection h with h1 _; exact absurd h1.symm hs
        · simp at h
    · simp only [mainEnd, if_true, if_neg hs, handle_value]
      constructor
      · rintro ⟨_, h⟩; exact .inl ⟨s, msg, rfl, hs, h (.inl trivial)⟩
      · rintro (⟨s', m, h, _, ha⟩ | ⟨c, m, h, _⟩)
        · injection h with _ h2; subst h2; exact ⟨by simp, fun _ => ha⟩
        · simp at h
  | raises c msg =>
    simp only [mainEnd, handle_value]
    constructor
    · intro h; exact .inr ⟨c, msg, rfl, h⟩
    · rintro (⟨s', m, h, _⟩ | ⟨c', m, h, h'⟩)
      · simp at h
      · injection h with h1 h2; subst h1; subst h2; exact h'

/-- The others, an interrupt apart, are a TypeError, which is not meant: `exit` is called instead of `pexit`. -/
theorem stops_iff (body : SrsBody) : (∃ msg, mainEnd true body = .raised .type msg) ↔
    (∃ s msg, body = .exits s msg ∧ s ≠ 0 ∧ ¬ str "Aborting" <:+ srsFault msg) ∨
      (∃ c msg, body = .raises c msg ∧ (c = .value ∨ c = .assertion) ∧ ¬ str "Aborting" <:+ srsFault msg) := by
  cases body with
  | ended => simp [mainEnd, pexit]
  | exits s msg =>
    by_cases hs : s = 0
    · subst hs; simp only [mainEnd]; constructor
      · rintro ⟨m, h⟩; simp at h
      · rintro (⟨s, m, h, hs, _⟩ | ⟨c, m, h, _⟩)
        · injection h with h1 _; exact absurd h1.symm hs
        · simp at h
    · simp only [mainEnd, if_true, if_neg hs, handle_type]
      constructor
      · rintro ⟨_, h⟩; exact .inl ⟨s, msg, rfl, hs, h⟩
      · rintro (⟨s', m, h, _, ha⟩ | ⟨c, m, h, _⟩)
        · injection h with _ h2; subst h2; exact ⟨.inl trivial, ha⟩
        · simp at h
  | raises c msg =>
    simp only [mainEnd, handle_type]
    constructor
    · intro h; exact .inr ⟨c, msg, rfl, h⟩
    · rintro (⟨s', m, h, _⟩ | ⟨c', m, h, h'⟩)
      · simp at h
      · injection h with h1 h2; subst h1; subst h2; exact h'

/-! ### The reports -/

/-- A track that is not found in a main file is told in the agreed way, whatever its number. -/
theorem locate_aborting (track : Str) : str "Aborting" <:+ srsFault (locateMsg track) := by
  have h : locateMsg track = (str "\nUnable to locate track signature for track " ++ track) ++ 46 :: str " Aborting.\n" := by
    unfold locateMsg
    rfl
  obtain ⟨y, hy⟩ := srsFault_tail (str "\nUnable to locate track signature for track " ++ track) (c := 46) (v := str " Aborting.\n")
    (z := str ". Aborting") (by decide) (by decide +kernel) (by decide +kernel)
  rw [h, hy]
  exact ⟨y ++ str ". ", by rw [List.append_assoc]; congr 1⟩

/-- The text for a file of no known kind does not, whatever its name and size. -/
theorem unknown_not_aborting (base size : Str) : ¬ str "Aborting" <:+ srsFault (unknownMsg base size) := by
  have h : unknownMsg base size = (str "Could not locate MKV, AVI, MP4, WMV, FLAC or MP3 data in file: " ++ base ++ str "\nFile size: " ++ size ++ [32]) ++
      98 :: str "ytes\n" := by
    unfold unknownMsg
    rw [show str " bytes\n" = [32] ++ 98 :: str "ytes\n" from by decide +kernel]
    simp only [List.append_assoc]
  obtain ⟨y, hy⟩ := srsFault_tail (str "Could not locate MKV, AVI, MP4, WMV, FLAC or MP3 data in file: " ++ base ++ str "\nFile size: " ++ size ++ [32])
    (c := 98) (v := str "ytes\n") (z := str "bytes") (by decide) (by decide +kernel) (by decide +kernel)
  rw [h, hy]
  exact not_aborting (c := 115) (by decide +kernel) (by decide)

theorem big_not_aborting : ¬ str "Aborting" <:+ srsFault bigMsg := by decide +kernel
theorem noTracks_not_aborting : ¬ str "Aborting" <:+ srsFault noTracksMsg := by decide +kernel
theorem format_not_aborting : ¬ str "Aborting" <:+ srsFault formatMsg := by decide +kernel
theorem incomplete_not_aborting (k : SampleKind) : ¬ str "Aborting" <:+ srsFault (incompleteMsg k) := by
  unfold incompleteMsg
  split <;> decide +kernel

/-! ### The samples of a release -/

theorem answers_returned {dig : Nat → Bool} {lower : Str → Str} {c : SrsCall} (h : Answers dig lower c) :
    (Makes dig lower c ∧ mainEnd true (srsMakeBody dig lower c) = .returned) ∨
      (¬ Makes dig lower c ∧ ∃ msg, mainEnd true (srsMakeBody dig lower c) = .raised .value msg ∧ ¬ msgNotFound <:+ msg) := by
  rcases h with h | h
  · exact .inl ⟨(call_returns ..).1 h, h⟩
  · refine .inr ⟨?_, h⟩
    intro hm
    obtain ⟨msg, h, _⟩ := h
    rw [(call_returns ..).2 hm] at h
    simp at h

theorem verify_answers {dig : Nat → Bool} {lower : Str → Str} (l : List SrsCall) (h : ∀ c ∈ l, Answers dig lower c) :
    ∃ b, autoVerify (l.map fun c => mainEnd true (srsMakeBody dig lower c)) = .ok b ∧ (b = true ↔ ∃ c ∈ l, Makes dig lower c) := by
  induction l with
  | nil => exact ⟨false, rfl, by simp⟩
  | cons c l ih =>
    obtain ⟨b, hb, hiff⟩ := ih fun x hx => h x (by simp [hx])
    rcases answers_returned (h c (by simp)) with ⟨hm, hr⟩ | ⟨hm, msg, hr, _⟩
    · exact ⟨true, by simp [hr, autoVerify], by simp [hm]⟩
    · refine ⟨b, by simpa [hr, autoVerify] using hb, ?_⟩
      rw [hiff]
      simp [hm]

/-- C85, for calls that answer: the sample gets its SRS when one can be made, otherwise the text; an empty file gets nothing. -/
theorem sample_expected_partial {dig : Nat → Bool} {lower : Str → Str} {s : AutoSample} (hc : ∀ c ∈ s.checked, Answers dig lower c)
    (hp : Answers dig lower s.plain) : ∃ f, s.fate dig lower = .ok f ∧ Expected dig lower s f := by
  obtain ⟨b, hb, hiff⟩ := verify_answers s.checked hc
  unfold AutoSample.fate autoSample
  have hfound : (if s.verify then autoVerify (s.checked.map fun c => mainEnd true (srsMakeBody dig lower c)) else .ok false)
      = .ok (s.verify && b) := by
    cases s.verify <;> simp [hb]
  rw [hfound]
  by_cases hf : (s.verify && b) = true
  · simp only [hf]
    have hcan : CanMake dig lower s := by
      rw [Bool.and_eq_true] at hf
      exact .inl ⟨hf.1, hiff.1 hf.2⟩
    exact ⟨.srs, rfl, by simp [hcan], by simp [hcan], by simp [hcan]⟩
  · simp only [Bool.not_eq_true] at hf
    simp only [hf]
    have hno : (s.verify = true ∧ ∃ c ∈ s.checked, Makes dig lower c) → False := fun ⟨h1, h2⟩ => by simp [h1, hiff.2 h2] at hf
    rcases answers_returned hp with ⟨hm, hr⟩ | ⟨hm, msg, hr, hmsg⟩
    · rw [hr]
      have hcan : CanMake dig lower s := .inr hm
      exact ⟨.srs, rfl, by simp [hcan], by simp [hcan], by simp [hcan]⟩
    · rw [hr]
      have hcan : ¬ CanMake dig lower s := by
        rintro (h | h)
        · exact hno h
        · exact hm h
      dsimp only
      rw [if_neg hmsg]
      by_cases hl : s.plain.sample.length > 0
      · rw [if_pos hl]
        have hne : s.plain.sample ≠ [] := by intro h0; rw [h0] at hl; simp at hl
        exact ⟨.text, rfl, by simp [hcan], by simp [hcan, hne], by simp [hne]⟩
      · rw [if_neg hl]
        have hne : s.plain.sample = [] := List.length_eq_zero_iff.1 (by omega)
        exact ⟨.nothing, rfl, by simp [hcan], by simp [hne], by simp [hcan, hne]⟩

/-- C85, for calls that answer: every sample of a release gets what is expected, whatever the others are. -/
theorem samples_expected_partial {dig : Nat → Bool} {lower : Str → Str} (l : List AutoSample)
    (h : ∀ s ∈ l, (∀ c ∈ s.checked, Answers dig lower c) ∧ Answers dig lower s.plain) :
    ∃ fs, autoSamples dig lower l = .ok fs ∧ AllExpected dig lower l fs := by
  induction l with
  | nil => exact ⟨[], rfl, .nil⟩
  | cons s l ih =>
    obtain ⟨fs, hfs, hall⟩ := ih fun x hx => h x (by simp [hx])
    obtain ⟨f, hf, he⟩ := sample_expected_partial (h s (by simp)).1 (h s (by simp)).2
    refine ⟨f :: fs, ?_, .cons he hall⟩
    unfold autoSamples
    rw [hf]
    dsimp only
    rw [hfs]

/-- The calls that do not answer: an SRS is not made, and the caller gets a TypeError. -/
theorem call_stops {dig : Nat → Bool} {lower : Str → Str} {c : SrsCall} {s : Nat} {msg : Str}
    (h : srsMakeBody dig lower c = .exits s msg) (ha : ¬ str "Aborting" <:+ srsFault msg) :
    ∃ m, mainEnd true (srsMakeBody dig lower c) = .raised .type m :=
  (stops_iff _).2 (.inl ⟨s, msg, h, (make_exits h).1, ha⟩)

/-- C85: a sample that is not in the main file, which is of its format, is answered. -/
theorem not_located_answers {dig : Nat → Bool} {lower : Str → Str} {c : SrsCall} (h : srsMakeBody dig lower c = .exits 3 (locateMsg c.track)) :
    ∃ msg, mainEnd true (srsMakeBody dig lower c) = .raised .value msg :=
  (answers_iff _).2 (.inl ⟨3, _, h, by omega, locate_aborting _⟩)

/-- C85, violation: a file that is not recognised, such as one of fewer than 14 bytes, whatever its name. -/
theorem unknown_stops {dig : Nat → Bool} {lower : Str → Str} {c : SrsCall}
    (h : MediaFile.kind dig lower ⟨c.path, c.sample, none⟩ = .ok .unknown) :
    ∃ m, mainEnd true (srsMakeBody dig lower c) = .raised .type m := by
  refine call_stops (s := 1) (msg := unknownMsg (basename c.path) c.size) ?_ (unknown_not_aborting _ _)
  unfold srsMakeBody
  rw [h]

/-- An empty file is not recognised. -/
theorem short_unknown {dig : Nat → Bool} {lower : Str → Str} {path : Str} {sample : Bytes} (h : sample.length < 14) :
    MediaFile.kind dig lower ⟨path, sample, none⟩ = .ok .unknown := by
  unfold MediaFile.kind
  dsimp only
  rw [if_pos (by simp; omega)]

/-- C85, violation: a sample of 2 GiB or more. -/
theorem big_stops {dig : Nat → Bool} {lower : Str → Str} {c : SrsCall} {k : SampleKind}
    (h : MediaFile.kind dig lower ⟨c.path, c.sample, none⟩ = .ok k) (hb : c.sample.length ≥ 0x80000000) (hbig : c.big = false) :
    ∃ m, mainEnd true (srsMakeBody dig lower c) = .raised .type m := by
  by_cases hk : k = .unknown
  · subst hk; exact unknown_stops h
  refine call_stops (s := 1) (msg := bigMsg) ?_ big_not_aborting
  unfold srsMakeBody
  rw [h]
  cases k
  case unknown => exact absurd rfl hk
  all_goals dsimp only; rw [if_pos ⟨hb, hbig⟩]

/-- C85, violation: a sample that is cut off or followed by other data, of any format. -/
theorem incomplete_stops {dig : Nat → Bool} {lower : Str → Str} {c : SrsCall} {k : SampleKind}
    (h : MediaFile.kind dig lower ⟨c.path, c.sample, none⟩ = .ok k) (hs : c.sample.length < 0x80000000) (hnf : c.noFolder = none)
    (hp : profileOf k c.sample = .error .incompleteSample) : ∃ m, mainEnd true (srsMakeBody dig lower c) = .raised .type m := by
  refine call_stops (s := 2) (msg := incompleteMsg k) ?_ (incomplete_not_aborting k)
  unfold srsMakeBody
  rw [h]
  cases k
  case unknown => simp [profileOf] at hp
  all_goals
    dsimp only
    rw [if_neg (by omega), hnf]
    dsimp only
    rw [hp]

/-- C85, violation: a sample without audio and video. -/
theorem no_tracks_stops {dig : Nat → Bool} {lower : Str → Str} {c : SrsCall} {k : SampleKind}
    (h : MediaFile.kind dig lower ⟨c.path, c.sample, none⟩ = .ok k) (hs : c.sample.length < 0x80000000) (hnf : c.noFolder = none)
    (hfp : c.fpFails = none) (hp : profileOf k c.sample = .ok []) : ∃ m, mainEnd true (srsMakeBody dig lower c) = .raised .type m := by
  refine call_stops (s := 2) (msg := noTracksMsg) ?_ noTracks_not_aborting
  unfold srsMakeBody
  rw [h]
  cases k
  case unknown => simp [profileOf] at hp
  all_goals
    dsimp only
    rw [if_neg (by omega), hnf]
    dsimp only
    rw [hp]
    simp [hfp]

/-- C85, violation: the main file is of another format than the sample, such as a DVD's for an AVI sample. -/
theorem format_stops {dig : Nat → Bool} {lower : Str → Str} {c : SrsCall} {k mk : SampleKind} {m : MediaFile} {t : List (Nat × Bytes)}
    (h : MediaFile.kind dig lower ⟨c.path, c.sample, none⟩ = .ok k) (hs : c.sample.length < 0x80000000) (hnf : c.noFolder = none)
    (hfp : c.fpFails = none) (hp : profileOf k c.sample = .ok t) (hv : ¬ str ".vob" <:+ lower c.path) (hm : c.check = some m)
    (hmk : m.kind dig lower = .ok mk) (hne : mk ≠ k) (hk : k ≠ .stream) :
    ∃ m, mainEnd true (srsMakeBody dig lower c) = .raised .type m := by
  by_cases ht : t = []
  · subst ht; exact no_tracks_stops h hs hnf hfp hp
  refine call_stops (s := 1) (msg := formatMsg) ?_ format_not_aborting
  unfold srsMakeBody
  rw [h]
  cases k
  case unknown => simp [profileOf] at hp
  case stream => exact absurd rfl hk
  all_goals
    dsimp only
    rw [if_neg (by omega), hnf]
    dsimp only
    rw [hp]
    simp only [hfp, ite_self]
    rw [if_neg ht]
    unfold vobIsRar
    rw [if_neg hv]
    simp only [Bool.false_eq_true, if_false]
    rw [hm]
    unfold srsCheckBody
    simp only [hmk]
    rw [if_pos ⟨hne, hk⟩]

/-- C85, violation: music of which `fpcalc` finds no fingerprint. -/
theorem fingerprint_stops {dig : Nat → Bool} {lower : Str → Str} {c : SrsCall} {k : SampleKind} {t : List (Nat × Bytes)}
    (h : MediaFile.kind dig lower ⟨c.path, c.sample, none⟩ = .ok k) (hk : k = .flac ∨ k = .mp3) (hs : c.sample.length < 0x80000000)
    (hnf : c.noFolder = none) (hp : profileOf k c.sample = .ok t) (hfp : c.fpFails = some (.value, str "Fingerprinting failed.")) :
    ∃ m, mainEnd true (srsMakeBody dig lower c) = .raised .type m := by
  refine (stops_iff _).2 (.inr ⟨.value, str "Fingerprinting failed.", ?_, .inl rfl, by decide +kernel⟩)
  unfold srsMakeBody
  rw [h]
  rcases hk with rfl | rfl
  all_goals
    dsimp only
    rw [if_neg (by omega), hnf]
    dsimp only
    rw [hp]
    simp [hfp]

/-- C85, violation: a sample of which a call does not answer, here the one without a main file, leaves all samples of the release
without SRS, those before it as well as those after. -/
theorem sample_stops_release {dig : Nat → Bool} {lower : Str → Str} {pre post : List AutoSample} {s : AutoSample} {m : Str}
    (hpre : ∀ s ∈ pre, (∀ c ∈ s.checked, Answers dig lower c) ∧ Answers dig lower s.plain) (hv : s.verify = false)
    (hs : mainEnd true (srsMakeBody dig lower s.plain) = .raised .type m) : autoSamples dig lower (pre ++ s :: post) = .error .type := by
  induction pre with
  | nil =>
    simp only [List.nil_append, autoSamples, AutoSample.fate, autoSample, hv, hs]
    simp
  | cons a pre ih =>
    obtain ⟨f, hf, _⟩ := sample_expected_partial (hpre a (by simp)).1 (hpre a (by simp)).2
    rw [List.cons_append, autoSamples, hf]
    dsimp only
    rw [ih fun x hx => hpre x (by simp [hx])]

/-- C85, violation: the same for a main file, such as one of another format, although an SRS could be made without it. -/
theorem check_stops_sample {dig : Nat → Bool} {lower : Str → Str} {s : AutoSample} {pre post : List SrsCall} {c : SrsCall} {m : Str}
    (hl : s.checked = pre ++ c :: post) (hpre : ∀ c ∈ pre, Answers dig lower c ∧ ¬ Makes dig lower c) (hv : s.verify = true)
    (hs : mainEnd true (srsMakeBody dig lower c) = .raised .type m) : s.fate dig lower = .error .type := by
  have h : autoVerify (s.checked.map fun c => mainEnd true (srsMakeBody dig lower c)) = .error .type := by
    rw [hl]
    clear hl
    induction pre with
    | nil => simp [hs, autoVerify]
    | cons a pre ih =>
      rcases answers_returned (hpre a (by simp)).1 with ⟨hm, _⟩ | ⟨_, msg, hr, _⟩
      · exact absurd hm (hpre a (by simp)).2
      · simp only [List.cons_append, List.map_cons, hr, autoVerify]
        exact ih fun x hx => hpre x (by simp [hx])
  unfold AutoSample.fate autoSample
  rw [hv, if_pos rfl, h]

/-- C85: without `fpcalc` there is no SRS of music, and pyrescene stops, as is meant. -/
theorem no_fpcalc_aborts {dig : Nat → Bool} {lower : Str → Str} {s : AutoSample} {k : SampleKind} {t : List (Nat × Bytes)} (hv : s.verify = false)
    (h : MediaFile.kind dig lower ⟨s.plain.path, s.plain.sample, none⟩ = .ok k) (hk : k = .flac ∨ k = .mp3)
    (hs : s.plain.sample.length < 0x80000000) (hnf : s.plain.noFolder = none) (hp : profileOf k s.plain.sample = .ok t)
    (hfp : s.plain.fpFails = some (.noFpcalc, msgNotFound)) : s.fate dig lower = .error .noFpcalc := by
  have hb : srsMakeBody dig lower s.plain = .raises .noFpcalc msgNotFound := by
    unfold srsMakeBody
    rw [h]
    rcases hk with rfl | rfl
    all_goals
      dsimp only
      rw [if_neg (by omega), hnf]
      dsimp only
      rw [hp]
      simp [hfp]
  unfold AutoSample.fate autoSample
  rw [hv, hb]
  simp [mainEnd, srsHandle, pexit]

/-! ### The releases -/

theorem loop_made (recursive : Bool) (l : List (Nat × AutoEnd)) (tail : List (Nat × AutoEnd)) (r : AutoRun)
    (h : ∀ x ∈ l, (∃ b, x.2 = .made b) ∨ (x.2 = .fileNotFound ∧ recursive = true)) :
    autoLoop recursive r (l ++ tail) =
      autoLoop recursive { r with handled := r.handled ++ l.map (·.1), missing := r.missing ++ (l.filter fun x => x.2 ≠ .made true).map (·.1) } tail := by
  induction l generalizing r with
  | nil => simp
  | cons x l ih =>
    obtain ⟨n, e⟩ := x
    have ih := fun r => ih r fun x hx => h x (by simp [hx])
    rcases h (n, e) (by simp) with ⟨b, hb⟩ | ⟨hf, hr⟩
    · dsimp only at hb
      subst hb
      cases b with
      | true =>
        rw [List.cons_append, autoLoop]
        rw [ih]
        simp
      | false =>
        rw [List.cons_append, autoLoop]
        dsimp only
        rw [ih]
        simp
    · dsimp only at hf
      subst hf
      rw [List.cons_append, autoLoop]
      dsimp only
      rw [if_pos hr, ih]
      simp

theorem fin_answers {dig : Nat → Bool} {lower : Str → Str} {r : AutoRelease}
    (h : ∀ s ∈ r.samples, (∀ c ∈ s.checked, Answers dig lower c) ∧ Answers dig lower s.plain) : r.fin dig lower = r.rest := by
  obtain ⟨fs, hfs, _⟩ := samples_expected_partial r.samples h
  simp [AutoRelease.fin, hfs]

theorem zip_range_mem {α : Type} (l : List α) (x : Nat × α) : x ∈ (List.range l.length).zip l ↔ l[x.1]? = some x.2 := by
  rw [List.mem_iff_getElem?]
  constructor
  · rintro ⟨i, hi⟩
    rw [List.getElem?_zip_eq_some] at hi
    obtain ⟨h1, h2⟩ := hi
    rw [List.getElem?_eq_some_iff] at h1
    obtain ⟨h3, h1⟩ := h1
    rw [List.getElem_range] at h1
    rw [← h1]; exact h2
  · intro h
    refine ⟨x.1, ?_⟩
    rw [List.getElem?_zip_eq_some]
    obtain ⟨hlt, _⟩ := List.getElem?_eq_some_iff.1 h
    exact ⟨by rw [List.getElem?_eq_some_iff]; exact ⟨by simpa using hlt, by simp⟩, h⟩

/-- C85, when all samples are answered: every release is handled, in order; the missing ones are those without SRR; the exit status
is 0 exactly when there are none. -/
theorem run_expected_partial {dig : Nat → Bool} {lower : Str → Str} {recursive : Bool} {releases : List AutoRelease}
    (hs : ∀ r ∈ releases, ∀ s ∈ r.samples, (∀ c ∈ s.checked, Answers dig lower c) ∧ Answers dig lower s.plain)
    (hr : ∀ r ∈ releases, (∃ b, r.rest = .made b) ∨ (r.rest = .fileNotFound ∧ recursive = true)) :
    let run := autoMain dig lower recursive releases
    run.handled = List.range releases.length ∧ (∀ i, i ∈ run.missing ↔ ∃ r, releases[i]? = some r ∧ r.rest ≠ .made true) ∧
      run.escaped = none ∧ run.aborted = false ∧ (run.status = 0 ↔ ∀ r ∈ releases, r.rest = .made true) := by
  have hfin : releases.map (AutoRelease.fin dig lower) = releases.map (·.rest) :=
    List.map_congr_left fun r h => fin_answers (hs r h)
  have hloop := loop_made recursive ((List.range releases.length).zip (releases.map (·.rest))) [] {} (by
    intro x hx
    have hx2 := List.of_mem_zip hx |>.2
    rw [List.mem_map] at hx2
    obtain ⟨r, hr1, hr2⟩ := hx2
    rw [← hr2]
    exact hr r hr1)
  rw [List.append_nil, autoLoop] at hloop
  have hmiss : ∀ i, i ∈ (((List.range releases.length).zip (releases.map (·.rest))).filter fun x => x.2 ≠ .made true).map (·.1) ↔
      ∃ r, releases[i]? = some r ∧ r.rest ≠ .made true := by
    intro i
    rw [List.mem_map]
    have hlen : releases.length = (releases.map (·.rest)).length := by simp
    constructor
    · rintro ⟨x, hx, rfl⟩
      rw [List.mem_filter, hlen, zip_range_mem, List.getElem?_map] at hx
      obtain ⟨h1, h2⟩ := hx
      cases hri : releases[x.1]? with
      | none => rw [hri] at h1; simp at h1
      | some r =>
        rw [hri] at h1
        simp only [Option.map_some, Option.some.injEq] at h1
        exact ⟨r, rfl, by rw [h1]; simpa using h2⟩
    · rintro ⟨r, h1, h2⟩
      refine ⟨(i, r.rest), ?_, rfl⟩
      rw [List.mem_filter, hlen, zip_range_mem, List.getElem?_map]
      exact ⟨by simp [h1], by simpa using h2⟩
  dsimp only
  unfold autoMain
  rw [hfin, hloop]
  refine ⟨?_, ?_, rfl, rfl, ?_⟩
  · simp only [List.nil_append]
    rw [List.map_fst_zip (by simp)]
  · simpa only [List.nil_append] using hmiss
  · simp only [List.nil_append, AutoRun.status, ne_eq, not_true, if_false, Bool.false_eq_true, false_or]
    constructor
    · intro h r hr'
      obtain ⟨i, hi⟩ := List.mem_iff_getElem?.1 hr'
      by_cases hne : r.rest = .made true
      · exact hne
      · exfalso
        have hm := (hmiss i).2 ⟨r, hi, hne⟩
        rw [if_pos (fun h0 => by simp only [ne_eq] at hm; rw [h0] at hm; simp at hm)] at h
        simp at h
    · intro h
      rw [if_neg]
      simp only [Classical.not_not]
      apply List.eq_nil_iff_forall_not_mem.2
      intro i hi
      obtain ⟨r, h1, h2⟩ := (hmiss i).1 hi
      exact h2 (h r (List.mem_of_getElem? h1))

/-- C85, violation: after a sample of which a call does not answer, the releases that follow are not handled at all; pyrescene ends
with a TypeError. -/
theorem sample_stops_run {dig : Nat → Bool} {lower : Str → Str} {recursive : Bool} {before after : List AutoRelease} {pre post : List AutoSample}
    {s : AutoSample} {rest : AutoEnd} {m : Str}
    (hs : ∀ r ∈ before, ∀ s ∈ r.samples, (∀ c ∈ s.checked, Answers dig lower c) ∧ Answers dig lower s.plain)
    (hr : ∀ r ∈ before, (∃ b, r.rest = .made b) ∨ (r.rest = .fileNotFound ∧ recursive = true))
    (hpre : ∀ s ∈ pre, (∀ c ∈ s.checked, Answers dig lower c) ∧ Answers dig lower s.plain) (hv : s.verify = false)
    (hm : mainEnd true (srsMakeBody dig lower s.plain) = .raised .type m) :
    let run := autoMain dig lower recursive (before ++ ⟨pre ++ s :: post, rest⟩ :: after)
    run.handled = List.range (before.length + 1) ∧ run.escaped = some .type ∧ run.status = 1 := by
  have hstop := sample_stops_release (post := post) hpre hv hm
  have hfin : before.map (AutoRelease.fin dig lower) = before.map (·.rest) :=
    List.map_congr_left fun r h => fin_answers (hs r h)
  have hsplit : (List.range (before ++ ⟨pre ++ s :: post, rest⟩ :: after : List AutoRelease).length).zip
      ((before ++ ⟨pre ++ s :: post, rest⟩ :: after).map (AutoRelease.fin dig lower)) =
      (List.range before.length).zip (before.map (·.rest)) ++
        (before.length, .raised .type) :: (List.map (before.length + 1 + ·) (List.range after.length)).zip (after.map (AutoRelease.fin dig lower)) := by
    rw [List.length_append, List.length_cons, show before.length + (after.length + 1) = before.length + 1 + after.length by omega, List.range_add,
      List.range_succ, List.map_append, List.map_cons, hfin, List.append_assoc, List.zip_append (by simp)]
    simp only [List.cons_append, List.nil_append, List.zip_cons_cons]
    rw [show AutoRelease.fin dig lower ⟨pre ++ s :: post, rest⟩ = .raised .type by simp [AutoRelease.fin, hstop]]
  dsimp only
  unfold autoMain
  rw [hsplit, loop_made]
  · rw [autoLoop] <;> try (intro h; cases h)
    refine ⟨?_, rfl, rfl⟩
    simp only [List.nil_append]
    rw [List.map_fst_zip (by simp), List.range_succ]
  · intro x hx
    have hx2 := List.of_mem_zip hx |>.2
    rw [List.mem_map] at hx2
    obtain ⟨r, hr1, hr2⟩ := hx2
    rw [← hr2]
    exact hr r hr1

/-! ### Examples -/

/-- An empty sample: what pyrescene has code for ("do not keep txt files for empty files"). -/
def emptyCall : SrsCall := { app := str "pyReScene", path := str "/r/Sample/s.avi", sample := [], size := str "0" }

/-- A VOB sample, of which an SRS can be made. -/
def vobCall : SrsCall := { app := str "pyReScene", path := str "/r/Sample/s.vob", sample := [0, 0, 1, 0xBA] ++ List.replicate 40 7, size := str "44" }

example : ∃ m, mainEnd true (srsMakeBody (fun _ => false) id emptyCall) = .raised .type m := unknown_stops (short_unknown (by decide))

set_option maxRecDepth 100000 in
example : srsMakeBody (fun _ => false) id vobCall = .ended := by decide +kernel

example : Answers (fun _ => false) id vobCall := .inl (by
  rw [show srsMakeBody (fun _ => false) id vobCall = .ended from by decide +kernel]; rfl)

/-- A movie that the sample is not in. -/
def vobCheckCall : SrsCall := { vobCall with check := some ⟨str "/r/m.vob", [0, 0, 1, 0xBA] ++ List.replicate 60 8, none⟩ }

set_option maxRecDepth 100000 in
example : srsMakeBody (fun _ => false) id vobCheckCall = .exits 3 (locateMsg (str "1")) := by decide +kernel

end Rescene.Props
