import Verif.Lemmas.Paths
/-
C14, C29: paths built from names stored in SRR and RAR files.
-/
namespace Rescene.Props
open Rescene Rescene.Spec

/-- C29: `joinpath` accepts exactly the lists of plain path elements, and refuses
everything else with ValueError. -/
theorem joinpath_accepts_iff (ps : List Str) :
    ((∃ r, joinpath ps [] = .ok r) ↔ ∀ e ∈ ps, PlainElem e) ∧
    ((∃ e ∈ ps, ¬ PlainElem e) ↔ joinpath ps [] = .error .valueError) := by
  have h1 : (∃ r, joinpath ps [] = .ok r) ↔ ∀ e ∈ ps, PlainElem e := by
    simp only [joinpath_ok_iff]
    exact ⟨fun ⟨_, h, _⟩ => h, fun h => ⟨_, h, rfl⟩⟩
  refine ⟨h1, ?_⟩
  constructor
  · rintro ⟨e, he, hn⟩
    cases hj : joinpath ps [] with
    | ok r => exact absurd (h1.mp ⟨r, hj⟩ e he) hn
    | error x =>
      unfold joinpath at hj
      split at hj
      · simpa using hj.symm
      · simp at hj
  · intro h
    by_cases hall : ∀ e ∈ ps, PlainElem e
    · obtain ⟨r, hr⟩ := h1.mpr hall
      rw [h] at hr; simp at hr
    · simpa using hall

/-- C29: the result splits back into the same elements. -/
theorem joinpath_splits_back {ps : List Str} {r : Str} (h : joinpath ps [] = .ok r) (hne : ps ≠ []) :
    splitOn 0x2F r = ps := by
  obtain ⟨hp, rfl⟩ := joinpath_ok_iff.mp h
  exact splitOn_joinWith hne (fun e he => (hp e he).2.2.2)

/-- C29: different lists of elements give different paths. -/
theorem joinpath_injective {ps qs : List Str} {r : Str} (h : joinpath ps [] = .ok r)
    (h' : joinpath qs [] = .ok r) : ps = qs := by
  obtain ⟨hp, hr⟩ := joinpath_ok_iff.mp h
  obtain ⟨hq, hr'⟩ := joinpath_ok_iff.mp h'
  have nil : ∀ l : List Str, (∀ e ∈ l, PlainElem e) → joinWith 0x2F l = [] → l = [] := by
    intro l hl hj
    cases l with
    | nil => rfl
    | cons e t =>
      have he := (hl e (by simp)).1
      have := joinWith_head (sep := 0x2F) (ps := t) he
      rw [hj] at this
      cases e with
      | nil => exact absurd rfl he
      | cons c e => simp at this
  by_cases hpn : ps = []
  · subst hpn
    exact (nil qs hq (by rw [← hr', hr]; rfl)).symm
  · by_cases hqn : qs = []
    · subst hqn
      exact nil ps hp (by rw [← hr, hr']; rfl)
    · rw [← joinpath_splits_back h hpn, joinpath_splits_back h' hqn]

example : joinpath [str "Sample", str "x..y", str "a.srs"] [] = .ok (str "Sample/x..y/a.srs") := by decide
example : joinpath [str "a", str ".."] [] = .error .valueError := by decide

/-- Components of a stored name: separated by `/` or `\`. -/
def nameComponents (name : Str) : List Str := splitOn 0x2F (backToSlash name)

/-- C14: a stored name is accepted for extraction exactly when all its components are
plain; otherwise ValueError is raised. -/
theorem extraction_name_accepted_iff (name : Str) (ep : Bool) (out : Str) :
    ((∃ p, opath name ep out = .ok p) ↔ ∀ c ∈ nameComponents name, PlainElem c) ∧
    ((∃ c ∈ nameComponents name, ¬ PlainElem c) → opath name ep out = .error .valueError) := by
  have hj := joinpath_accepts_iff (nameComponents name)
  constructor
  · rw [← hj.1]
    unfold opath osFileNameSrr
    constructor
    · rintro ⟨p, hp⟩
      rw [bind_eq_ok] at hp
      exact ⟨_, hp.choose_spec.1⟩
    · rintro ⟨r, hr⟩
      unfold nameComponents at hr
      rw [hr]; exact ⟨_, rfl⟩
  · intro h
    have := hj.2.mp h
    unfold nameComponents at this
    unfold opath osFileNameSrr
    rw [this]; rfl

/-- C14: an accepted name is written below the output directory: whatever the working
directory, the path denotes the place of the output directory followed by plain
components only: all components of the stored name, or just the last one when paths are
not extracted. -/
theorem extraction_stays_below {name : Str} {ep : Bool} {out p : Str} (h : opath name ep out = .ok p)
    (cwd : List Str) :
    ∃ rel : List Str, rel ≠ [] ∧ (∀ c ∈ rel, PlainElem c) ∧
      place cwd p = place cwd out ++ rel ∧
      (ep = true → rel = nameComponents name) ∧
      (ep = false → ∃ c, rel = [c] ∧ (nameComponents name).getLast? = some c) := by
  unfold opath at h
  rw [bind_eq_ok] at h
  obtain ⟨f, hf, h⟩ := h
  simp only [pure_eq_ok, Except.ok.injEq] at h
  have hf' := hf
  unfold osFileNameSrr at hf
  obtain ⟨hplain, hfe⟩ := joinpath_ok_iff.mp hf
  have hcne : nameComponents name ≠ [] := splitOn_ne_nil _ _
  have hsp := joinpath_splits_back hf hcne
  cases ep with
  | true =>
    simp only [if_true] at h
    refine ⟨nameComponents name, hcne, hplain, ?_, fun _ => rfl, by simp⟩
    rw [← h, hfe, walk_base cwd _ _ (normpath_ne_nil _) hplain hcne, place_normpath]
    rfl
  | false =>
    simp only [Bool.false_eq_true, if_false] at h
    obtain ⟨c, hc⟩ : ∃ c, (nameComponents name).getLast? = some c := by
      cases hl : (nameComponents name).getLast? with
      | none => exact absurd (List.getLast?_eq_none_iff.mp hl) hcne
      | some c => exact ⟨c, rfl⟩
    have hcm : c ∈ nameComponents name := List.mem_of_mem_getLast? (by rw [hc]; simp)
    have hcp := hplain c hcm
    refine ⟨[c], by simp, by simpa using hcp, ?_, by simp, fun _ => ⟨c, rfl, hc⟩⟩
    have hb : basename f = c := by
      unfold basename
      rw [hsp]
      unfold nameComponents at hc
      rw [hc]; rfl
    have hj : joinWith 0x2F [c] = c := rfl
    have hw := walk_base cwd _ _ (normpath_ne_nil out) (by simpa using hcp : ∀ e ∈ [c], PlainElem e) (by simp)
    rw [hj] at hw
    rw [← h, hb, hw, place_normpath]

example : opath (str "Sample/a.srs") true (str "out/../x") = .ok (str "x/Sample/a.srs") := by decide
example : opath (str "Sample\\a.srs") false (str "/tmp/") = .ok (str "/tmp/a.srs") := by decide
example : opath (str "../../etc/passwd") true (str "out") = .error .valueError := by decide
example : opath (str "/etc/passwd") true (str "out") = .error .valueError := by decide
example : opath (str "a\\..\\b") true (str "out") = .error .valueError := by decide
example : place [str "home", str "u"] (str "x/Sample/a.srs") = [str "home", str "u", str "x", str "Sample", str "a.srs"] := by
  decide

end Rescene.Props
