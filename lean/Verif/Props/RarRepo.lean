import Verif.Spec.RarRepo
import Verif.Lemmas.AutoStore
import Verif.Lemmas.Release
import Verif.Lemmas.Edit
/-
C94: the repository of RAR executables.
-/
namespace Rescene.Props
open Rescene Rescene.Spec

/-! ### Names of archives -/

theorem skip_app (a s : Str) : skipLit a (a ++ s) = some s := by
  induction a with
  | nil => rfl
  | cons c a ih => simp [skipLit, ih]

theorem digits_app {dv : Nat → Option Nat} {ds : Str} (h : ∀ c ∈ ds, (dv c).isSome = true) (s : Str) :
    takeDigits dv ds.length (ds ++ s) = some (ds, s) := by
  induction ds with
  | nil => rfl
  | cons c ds ih =>
    simp only [List.cons_append, List.length_cons, takeDigits]
    rw [if_pos (h c (by simp)), ih fun x hx => h x (by simp [hx])]

theorem dv_digit {dv : Nat → Option Nat} (hdv : DigitValues dv) {d : Nat} (h : d < 10) : dv (0x30 + d) = some d := hdv.1 d h

theorem dv_ascii {dv : Nat → Option Nat} (hdv : DigitValues dv) {c : Nat} (h : c < 128) (h2 : ¬ (0x30 ≤ c ∧ c ≤ 0x39)) : dv c = none := hdv.2.1 c h h2

theorem takeWhile_letters {letters rest : Str} (hl : ∀ c ∈ letters, asciiLetter c = true) (hr : ∀ c r, rest = c :: r → asciiLetter c = false) :
    (letters ++ rest).takeWhile asciiLetter = letters ∧ (letters ++ rest).dropWhile asciiLetter = rest := by
  induction letters with
  | nil =>
    cases rest with
    | nil => simp
    | cons c r => simp [hr c r rfl]
  | cons c l ih =>
    have := ih fun x hx => hl x (by simp [hx])
    simp [hl c (by simp), this.1, this.2]

/-- The rest of a Windows name: something that is neither a further digit nor a beta. -/
def OtherText (dv : Nat → Option Nat) (rest : Str) : Prop :=
  ∃ c r, rest = c :: r ∧ c ≠ 0x0A ∧ dv c = none ∧ ¬ (c = 0x62 ∧ ∃ d r', r = d :: r' ∧ (dv d).isSome = true)

theorem takeBeta_none {dv : Nat → Option Nat} {rest : Str} (h : OtherText dv rest) : takeBeta dv rest = none := by
  obtain ⟨c, r, rfl, _, _, h4⟩ := h
  unfold takeBeta
  split
  · rename_i heq
    cases heq
    rename_i d s
    rw [if_neg]
    intro hd
    exact h4 ⟨rfl, _, _, rfl, hd⟩
  · rfl

theorem value_one {dv : Nat → Option Nat} (hdv : DigitValues dv) {d : Nat} (h : d < 10) : digitsValue dv [0x30 + d] = d := by
  simp [digitsValue, dv_digit hdv h]

theorem value_two {dv : Nat → Option Nat} (hdv : DigitValues dv) {a b : Nat} (h : a < 10) (h2 : b < 10) :
    digitsValue dv [0x30 + a, 0x30 + b] = 10 * a + b := by
  simp [digitsValue, dv_digit hdv h, dv_digit hdv h2]

/-- C94: the version in the name of an archive for Windows: `wrar521b1.exe`, `winrar-x64-420.exe`. -/
theorem windows_tag {dv : Nat → Option Nat} {letters rest : Str} {x64 : Bool} {v : Version} (hdv : DigitValues dv) (hv : v.Ok)
    (hne : letters ≠ []) (hl : ∀ c ∈ letters, (0x41 ≤ c ∧ c ≤ 0x5A) ∨ (0x61 ≤ c ∧ c ≤ 0x7A)) (hr : OtherText dv rest) :
    ∃ t, versionTag dv (letters ++ (if x64 then str "-x64-" else []) ++ v.plain ++ rest) = some t ∧ TagIs t v x64 := by
  have hl : ∀ c ∈ letters, asciiLetter c = true := by
    intro c hc
    have := hl c hc
    simp only [asciiLetter, Bool.or_eq_true, Bool.and_eq_true, decide_eq_true_eq]
    exact this
  obtain ⟨hL, hT, hO, hB⟩ := hv
  have hbn := takeBeta_none hr
  obtain ⟨c, r, rfl, hc1, hc2, hc3⟩ := hr
  obtain ⟨large, tens, ones, beta⟩ := v
  simp only at hL hT hO hB
  have hd1 := dv_digit hdv hL
  have hd2 := dv_digit hdv hT
  have h2 := takeWhile_letters (letters := letters) (rest := (if x64 then str "-x64-" else []) ++ (⟨large, tens, ones, beta⟩ : Version).plain ++ c :: r) hl (by
    intro a b hab
    cases x64 with
    | true =>
      have h3 : a = 0x2D := by
        have := congrArg List.head? hab
        simpa [show str "-x64-" = [0x2D, 0x78, 0x36, 0x34, 0x2D] from by decide] using this.symm
      subst h3
      decide
    | false =>
      have h3 : a = 0x30 + large := by
        have := congrArg List.head? hab
        simpa [Version.plain, digit] using this.symm
      subst h3
      simp only [asciiLetter, Bool.or_eq_false_iff, Bool.and_eq_false_iff, decide_eq_false_iff_not]
      omega)
  have hopt : optLit (str "-x64-") ((if x64 then str "-x64-" else []) ++ (⟨large, tens, ones, beta⟩ : Version).plain ++ c :: r) =
      (x64, (⟨large, tens, ones, beta⟩ : Version).plain ++ c :: r) := by
    unfold optLit
    cases x64 with
    | true => rw [if_pos rfl, List.append_assoc, skip_app]
    | false =>
      rw [if_neg (by decide), List.nil_append]
      have : skipLit (str "-x64-") ((⟨large, tens, ones, beta⟩ : Version).plain ++ c :: r) = none := by
        rw [show str "-x64-" = [0x2D, 0x78, 0x36, 0x34, 0x2D] from by decide]
        simp only [Version.plain, digit, List.cons_append, skipLit]
        rw [if_neg (by omega)]
      rw [this]
  have hw : ∃ w, firstWay [windowsWay dv (((⟨large, tens, ones, beta⟩ : Version).plain ++ c :: r).tail) 2 true,
      windowsWay dv (((⟨large, tens, ones, beta⟩ : Version).plain ++ c :: r).tail) 2 false,
      windowsWay dv (((⟨large, tens, ones, beta⟩ : Version).plain ++ c :: r).tail) 1 true,
      windowsWay dv (((⟨large, tens, ones, beta⟩ : Version).plain ++ c :: r).tail) 1 false] = some w ∧
      w.1 = digit tens ++ (match ones with | some d => digit d | none => []) ∧ w.2 = beta.map fun k => str "b" ++ digit k := by
    have hb98 : dv 98 = none := dv_ascii hdv (by omega) (by omega)
    have hdot : rxDot c = true := by simpa [rxDot] using hc1
    cases ones with
    | some d =>
      have hd3 := dv_digit hdv (hO d rfl)
      cases beta with
      | some k =>
        have hd4 := dv_digit hdv (hB k rfl)
        refine ⟨_, by
          simp [Version.plain, Version.betaText, digit, windowsWay, takeDigits, hd2, hd3, betaWay, takeBeta, hd4, hdot, firstWay,
            show str "b" = [0x62] from by decide]; rfl, ?_⟩
        simp [digit, show str "b" = [0x62] from by decide]
      | none =>
        refine ⟨_, by
          simp [Version.plain, Version.betaText, digit, windowsWay, takeDigits, hd2, hd3, betaWay, hbn, hdot, firstWay]; rfl, ?_⟩
        simp [digit]
    | none =>
      cases beta with
      | some k =>
        have hd4 := dv_digit hdv (hB k rfl)
        refine ⟨_, by
          simp [Version.plain, Version.betaText, digit, windowsWay, takeDigits, hd2, hb98, betaWay, takeBeta, hd4, hdot, firstWay,
            show str "b" = [0x62] from by decide]; rfl, ?_⟩
        simp [digit, show str "b" = [0x62] from by decide]
      | none =>
        refine ⟨_, by
          simp [Version.plain, Version.betaText, digit, windowsWay, takeDigits, hd2, hc2, betaWay, hbn, hdot, firstWay]; rfl, ?_⟩
        simp [digit]
  obtain ⟨w, hw1, hw2, hw3⟩ := hw
  refine ⟨tagOf dv [0x30 + large] w.1 w.2 x64, ?_, ?_⟩
  · unfold versionTag windowsTag
    rw [List.append_assoc, List.append_assoc, ← List.append_assoc (if x64 = true then str "-x64-" else []), h2.1, h2.2]
    rw [if_neg (by simpa using hne), hopt]
    simp only
    have : takeDigits dv 1 ((⟨large, tens, ones, beta⟩ : Version).plain ++ c :: r) =
        some ([0x30 + large], ((⟨large, tens, ones, beta⟩ : Version).plain ++ c :: r).tail) := by
      simp [Version.plain, digit, takeDigits, hd1]
    rw [this]
    simp only
    rw [hw1]
    rfl
  · refine ⟨value_one hdv hL, ?_, ?_, ?_, rfl⟩
    · simp only [tagOf, hw2, Version.small]
      cases ones with
      | none => simp [digit, value_one hdv hT]
      | some d => simp [digit, value_two hdv hT (hO d rfl)]
    · simp only [tagOf, hw3, Version.betaText]
      cases beta <;> rfl
    · simp only [tagOf, hw3]
      cases beta <;> rfl

/-- C94: the version in the name of an archive for Linux, OS X or BSD: `rarlinux-x64-5.2.1.b1.tar.gz`. -/
theorem linux_tag {dv : Nat → Option Nat} {system rest : Str} {x64 betaDot : Bool} {v : Version} (hdv : DigitValues dv) (hv : v.Ok)
    (hs : system ∈ [str "osx", str "linux", str "bsd"]) :
    ∃ t, versionTag dv (str "rar" ++ system ++ str "-" ++ (if x64 then str "x64-" else []) ++ v.dotted betaDot ++ str ".tar.gz" ++ rest) = some t ∧
      TagIs t v x64 := by
  obtain ⟨hL, hT, hO, hB⟩ := hv
  obtain ⟨large, tens, ones, beta⟩ := v
  simp only at hL hT hO hB
  have hd1 := dv_digit hdv hL
  have hd2 := dv_digit hdv hT
  have hdash : dv 0x2D = none := dv_ascii hdv (by omega) (by omega)
  have hdot : dv 0x2E = none := dv_ascii hdv (by omega) (by omega)
  have hb : dv 0x62 = none := dv_ascii hdv (by omega) (by omega)
  have ht : dv 0x74 = none := dv_ascii hdv (by omega) (by omega)
  -- the first pattern does not match
  have hwin : windowsTag dv (str "rar" ++ system ++ str "-" ++ (if x64 then str "x64-" else []) ++ (⟨large, tens, ones, beta⟩ : Version).dotted betaDot ++
      str ".tar.gz" ++ rest) = none := by
    have h2 := takeWhile_letters (letters := str "rar" ++ system) (rest := str "-" ++ ((if x64 then str "x64-" else []) ++
        (⟨large, tens, ones, beta⟩ : Version).dotted betaDot ++ str ".tar.gz" ++ rest)) (by
      simp only [List.mem_cons, List.not_mem_nil, or_false] at hs
      rcases hs with rfl | rfl | rfl <;> decide) (by
      intro a b hab
      have h3 : a = 0x2D := by
        have := congrArg List.head? hab
        simpa [show str "-" = [0x2D] from by decide] using this.symm
      subst h3
      decide)
    unfold windowsTag
    simp only [List.append_assoc] at h2 ⊢
    rw [h2.1, h2.2, if_neg (by
      simp only [List.mem_cons, List.not_mem_nil, or_false] at hs
      rcases hs with rfl | rfl | rfl <;> decide)]
    cases x64 with
    | true =>
      simp only [if_true]
      have : optLit (str "-x64-") (str "-" ++ (str "x64-" ++ ((⟨large, tens, ones, beta⟩ : Version).dotted betaDot ++ (str ".tar.gz" ++ rest)))) =
          (true, (⟨large, tens, ones, beta⟩ : Version).dotted betaDot ++ (str ".tar.gz" ++ rest)) := by
        unfold optLit
        rw [← List.append_assoc, show str "-" ++ str "x64-" = str "-x64-" from by decide, skip_app]
      rw [this]
      simp [Version.dotted, digit, takeDigits, hd1, show str "." = [0x2E] from by decide, windowsWay, hdot, firstWay]
    | false =>
      have : optLit (str "-x64-") (str "-" ++ ((⟨large, tens, ones, beta⟩ : Version).dotted betaDot ++ (str ".tar.gz" ++ rest))) =
          (false, str "-" ++ ((⟨large, tens, ones, beta⟩ : Version).dotted betaDot ++ (str ".tar.gz" ++ rest))) := by
        unfold optLit
        have : skipLit (str "-x64-") (str "-" ++ ((⟨large, tens, ones, beta⟩ : Version).dotted betaDot ++ (str ".tar.gz" ++ rest))) = none := by
          rw [show str "-x64-" = [0x2D, 0x78, 0x36, 0x34, 0x2D] from by decide, show str "-" = [0x2D] from by decide]
          simp only [Version.dotted, digit, List.cons_append, List.nil_append, skipLit, if_true]
          rw [if_neg (by omega)]
        rw [this]
      simp only [Bool.false_eq_true, if_false, List.nil_append]
      rw [this]
      simp [takeDigits, hdash, show str "-" = [0x2D] from by decide]
  have hsys : firstWay [skipLit (str "rarosx-") (str "rar" ++ system ++ str "-" ++ (if x64 then str "x64-" else []) ++
        (⟨large, tens, ones, beta⟩ : Version).dotted betaDot ++ str ".tar.gz" ++ rest),
      skipLit (str "rarlinux-") (str "rar" ++ system ++ str "-" ++ (if x64 then str "x64-" else []) ++
        (⟨large, tens, ones, beta⟩ : Version).dotted betaDot ++ str ".tar.gz" ++ rest),
      skipLit (str "rarbsd-") (str "rar" ++ system ++ str "-" ++ (if x64 then str "x64-" else []) ++
        (⟨large, tens, ones, beta⟩ : Version).dotted betaDot ++ str ".tar.gz" ++ rest)] =
      some ((if x64 then str "x64-" else []) ++ (⟨large, tens, ones, beta⟩ : Version).dotted betaDot ++ str ".tar.gz" ++ rest) := by
    simp only [List.mem_cons, List.not_mem_nil, or_false] at hs
    simp only [List.append_assoc]
    generalize (if x64 then str "x64-" else []) ++ ((⟨large, tens, ones, beta⟩ : Version).dotted betaDot ++ (str ".tar.gz" ++ rest)) = q
    rcases hs with rfl | rfl | rfl
    · rw [show str "rar" ++ (str "osx" ++ (str "-" ++ q)) = str "rarosx-" ++ q from by
        rw [← List.append_assoc, ← List.append_assoc]; rfl, skip_app]
      rfl
    · rw [show str "rar" ++ (str "linux" ++ (str "-" ++ q)) = str "rarlinux-" ++ q from by
        rw [← List.append_assoc, ← List.append_assoc]; rfl, skip_app]
      rfl
    · rw [show str "rar" ++ (str "bsd" ++ (str "-" ++ q)) = str "rarbsd-" ++ q from by
        rw [← List.append_assoc, ← List.append_assoc]; rfl, skip_app]
      rfl
  have hopt : optLit (str "x64-") ((if x64 then str "x64-" else []) ++ (⟨large, tens, ones, beta⟩ : Version).dotted betaDot ++ str ".tar.gz" ++ rest) =
      (x64, (⟨large, tens, ones, beta⟩ : Version).dotted betaDot ++ str ".tar.gz" ++ rest) := by
    unfold optLit
    cases x64 with
    | true => simp only [if_true, List.append_assoc, skip_app]
    | false =>
      simp only [Bool.false_eq_true, if_false, List.nil_append]
      have : skipLit (str "x64-") ((⟨large, tens, ones, beta⟩ : Version).dotted betaDot ++ str ".tar.gz" ++ rest) = none := by
        rw [show str "x64-" = [0x78, 0x36, 0x34, 0x2D] from by decide]
        simp only [Version.dotted, digit, List.cons_append, List.nil_append, skipLit]
        rw [if_neg (by omega)]
      rw [this]
  have htar : isTarGz (str ".tar.gz" ++ rest) = true := by
    unfold isTarGz
    rw [show str ".tar.gz" ++ rest = str ".tar" ++ (0x2E :: (str "gz" ++ rest)) from rfl, skip_app]
    simp only [skip_app]
    rfl
  let s4 := ((⟨large, tens, ones, beta⟩ : Version).dotted betaDot ++ str ".tar.gz" ++ rest).drop 2
  have hw : ∃ w, firstWay [linuxWay dv s4 true true true, linuxWay dv s4 true true false, linuxWay dv s4 true false true,
      linuxWay dv s4 true false false, linuxWay dv s4 false true true, linuxWay dv s4 false true false, linuxWay dv s4 false false true,
      linuxWay dv s4 false false false] = some w ∧
      w.1 = digit tens ++ (match ones with | some d => digit d | none => []) ∧ w.2 = beta.map fun k => str "b" ++ digit k := by
    have e1 : str "." = [0x2E] := by decide
    have e2 : str "b" = [0x62] := by decide
    have e3 : str ".tar.gz" ++ rest = 0x2E :: 0x74 :: (str "ar.gz" ++ rest) := rfl
    have e4 : isTarGz (0x74 :: (str "ar.gz" ++ rest)) = false := by
      unfold isTarGz
      rw [show str ".tar" = [0x2E, 0x74, 0x61, 0x72] from by decide]
      simp [skipLit]
    rw [e3] at htar
    cases ones with
    | some d =>
      have hd3 := dv_digit hdv (hO d rfl)
      cases beta with
      | some k =>
        have hd4 := dv_digit hdv (hB k rfl)
        cases betaDot with
        | true =>
          refine ⟨(digit tens ++ digit d, some (str "b" ++ digit k)), ?_, by simp, by simp⟩
          simp [s4, Version.dotted, Version.betaText, digit, linuxWay, smallWay, takeDigits, hd2, hd3, betaWay, takeBeta, hd4, firstWay,
            e1, e2, e3, skipLit, htar]
        | false =>
          refine ⟨(digit tens ++ digit d, some (str "b" ++ digit k)), ?_, by simp, by simp⟩
          simp [s4, Version.dotted, Version.betaText, digit, linuxWay, smallWay, takeDigits, hd2, hd3, betaWay, takeBeta, hd4, firstWay,
            e1, e2, e3, skipLit, htar]
      | none =>
        refine ⟨(digit tens ++ digit d, none), ?_, by simp, by simp⟩
        simp [s4, Version.dotted, Version.betaText, digit, linuxWay, smallWay, takeDigits, hd2, hd3, betaWay, takeBeta, firstWay,
            e1, e3, e4, skipLit, htar]
    | none =>
      cases beta with
      | some k =>
        have hd4 := dv_digit hdv (hB k rfl)
        cases betaDot with
        | true =>
          refine ⟨(digit tens, some (str "b" ++ digit k)), ?_, by simp, by simp⟩
          simp [s4, Version.dotted, Version.betaText, digit, linuxWay, smallWay, takeDigits, hd2, hb, betaWay, takeBeta, hd4, firstWay,
            e1, e2, e3, skipLit, htar]
        | false =>
          refine ⟨(digit tens, some (str "b" ++ digit k)), ?_, by simp, by simp⟩
          simp [s4, Version.dotted, Version.betaText, digit, linuxWay, smallWay, takeDigits, hd2, betaWay, takeBeta, hd4, firstWay,
            e1, e2, e3, skipLit, htar]
      | none =>
        refine ⟨(digit tens, none), ?_, by simp, by simp⟩
        simp [s4, Version.dotted, Version.betaText, digit, linuxWay, smallWay, takeDigits, hd2, ht, betaWay, takeBeta, firstWay,
            e1, e3, e4, skipLit, htar]
  obtain ⟨w, hw1, hw2, hw3⟩ := hw
  refine ⟨tagOf dv [0x30 + large] w.1 w.2 x64, ?_, ?_⟩
  · unfold versionTag
    rw [hwin]
    simp only
    unfold linuxTag
    rw [hsys]
    simp only [hopt]
    have : takeDigits dv 1 ((⟨large, tens, ones, beta⟩ : Version).dotted betaDot ++ str ".tar.gz" ++ rest) = some ([0x30 + large], 0x2E :: s4) := by
      simp [s4, Version.dotted, digit, takeDigits, hd1, show str "." = [0x2E] from by decide]
    rw [this]
    simp only
    rw [show skipLit (str ".") (0x2E :: s4) = some s4 from skip_app [0x2E] s4]
    simp only
    rw [hw1]
    rfl
  · refine ⟨value_one hdv hL, ?_, ?_, ?_, rfl⟩
    · simp only [tagOf, hw2, Version.small]
      cases ones with
      | none => simp [digit, value_one hdv hT]
      | some d => simp [digit, value_two hdv hT (hO d rfl)]
    · simp only [tagOf, hw3, Version.betaText]
      cases beta <;> rfl
    · simp only [tagOf, hw3]
      cases beta <;> rfl

/-! ### Names of executables -/

theorem digits_some {dv : Nat → Option Nat} {n : Nat} : ∀ {s d r : Str}, takeDigits dv n s = some (d, r) →
    s = d ++ r ∧ d.length = n ∧ ∀ c ∈ d, (dv c).isSome = true := by
  induction n with
  | zero =>
    intro s d r h
    cases h
    exact ⟨rfl, rfl, by simp⟩
  | succ n ih =>
    intro s d r h
    cases s with
    | nil => cases h
    | cons c s =>
      unfold takeDigits at h
      split at h
      · rename_i hc
        split at h
        · rename_i d' r' heq
          cases h
          obtain ⟨h1, h2, h3⟩ := ih heq
          refine ⟨by rw [h1]; rfl, by simp [h2], ?_⟩
          intro x hx
          rcases List.mem_cons.1 hx with rfl | hx
          · exact hc
          · exact h3 x hx
        · cases h
      · cases h

theorem skip_some {l : Str} : ∀ {s r : Str}, skipLit l s = some r → s = l ++ r := by
  induction l with
  | nil => intro s r h; cases h; rfl
  | cons a l ih =>
    intro s r h
    cases s with
    | nil => cases h
    | cons c s =>
      unfold skipLit at h
      split at h
      · rename_i hac
        rw [hac, ih h]
        rfl
      · cases h

/-- C94: the executables in the folder are exactly the files whose names begin with a date (four, two and two digits with dashes), `_rar`
and three digits; the date and the version are those of the name. -/
theorem exe_iff {dv : Nat → Option Nat} {name : Str} {e : RarExe} : rarExe dv name = some e ↔
    ∃ y m d j n rest, name = y ++ str "-" ++ m ++ str "-" ++ d ++ str "_rar" ++ j ++ n ++ rest ∧
      y.length = 4 ∧ m.length = 2 ∧ d.length = 2 ∧ j.length = 1 ∧ n.length = 2 ∧ (∀ c ∈ y ++ m ++ d ++ j ++ n, (dv c).isSome = true) ∧
      e.name = name ∧ e.date = y ++ str "-" ++ m ++ str "-" ++ d ∧ e.major = digitsValue dv j ∧ e.minor = digitsValue dv n ∧
      (e.beta = none ∧ (∀ k r, rest = 0x62 :: k :: r → dv k = none) ∨
        ∃ k r, rest = 0x62 :: k :: r ∧ (dv k).isSome = true ∧ e.beta = some [0x62, k]) := by
  constructor
  · intro h
    unfold rarExe at h
    split at h
    · cases h
    rename_i y s1 h1
    split at h
    · cases h
    rename_i s2 h2
    split at h
    · cases h
    rename_i m s3 h3
    split at h
    · cases h
    rename_i s4 h4
    split at h
    · cases h
    rename_i d s5 h5
    split at h
    · cases h
    rename_i s6 h6
    split at h
    · cases h
    rename_i j s7 h7
    split at h
    · cases h
    rename_i n rest h8
    cases h
    obtain ⟨e1, l1, d1⟩ := digits_some h1
    have e2 := skip_some h2
    obtain ⟨e3, l3, d3⟩ := digits_some h3
    have e4 := skip_some h4
    obtain ⟨e5, l5, d5⟩ := digits_some h5
    have e6 := skip_some h6
    obtain ⟨e7, l7, d7⟩ := digits_some h7
    obtain ⟨e8, l8, d8⟩ := digits_some h8
    refine ⟨y, m, d, j, n, rest, ?_, l1, l3, l5, l7, l8, ?_, rfl, rfl, rfl, rfl, ?_⟩
    · rw [e1, e2, e3, e4, e5, e6, e7, e8]
      simp only [List.append_assoc]
    · intro c hc
      simp only [List.mem_append] at hc
      rcases hc with (((hc | hc) | hc) | hc) | hc
      · exact d1 c hc
      · exact d3 c hc
      · exact d5 c hc
      · exact d7 c hc
      · exact d8 c hc
    · simp only
      unfold takeBeta
      split
      · rename_i k r
        by_cases hk : (dv k).isSome = true
        · exact Or.inr ⟨k, r, rfl, hk, by simp [hk]⟩
        · refine Or.inl ⟨by simp [hk], ?_⟩
          intro k' r' h'
          cases h'
          simpa using hk
      · rename_i hno
        refine Or.inl ⟨rfl, ?_⟩
        intro k r h'
        exact absurd h' (hno k r)
  · rintro ⟨y, m, d, j, n, rest, rfl, l1, l3, l5, l7, l8, hall, hname, hdate, hmaj, hmin, hb⟩
    have hy := digits_app (dv := dv) (ds := y) fun c hc => hall c (by simp [hc])
    have hm := digits_app (dv := dv) (ds := m) fun c hc => hall c (by simp [hc])
    have hd := digits_app (dv := dv) (ds := d) fun c hc => hall c (by simp [hc])
    have hj := digits_app (dv := dv) (ds := j) fun c hc => hall c (by simp [hc])
    have hn := digits_app (dv := dv) (ds := n) fun c hc => hall c (by simp [hc])
    rw [l1] at hy
    rw [l3] at hm
    rw [l5] at hd
    rw [l7] at hj
    rw [l8] at hn
    unfold rarExe
    simp only [List.append_assoc] at hname hdate ⊢
    simp only [hy, hm, hd, hj, hn, skip_app, Option.some.injEq]
    have : (takeBeta dv rest).map (·.1) = e.beta := by
      rcases hb with ⟨h1, h2⟩ | ⟨k, r, rfl, h2, h3⟩
      · rw [h1]
        unfold takeBeta
        split
        · rename_i k r
          rw [h2 k r rfl]
          rfl
        · rfl
      · rw [h3]
        simp [takeBeta, h2]
    rw [this, ← hname, ← hdate, ← hmaj, ← hmin]

/-! ### The repository -/

/-- C94: the repository has exactly the executables of the folder, the oldest first; those of the same date are in the order of the folder. -/
theorem repo_exact {dv : Nat → Option Nat} {names : List Str} :
    (∀ e, e ∈ loadRepo dv names ↔ ∃ n ∈ names, rarExe dv n = some e) ∧ (loadRepo dv names).Pairwise NotLater ∧
    (loadRepo dv names).Perm (names.filterMap (rarExe dv)) ∧
    ∀ date, (loadRepo dv names).filter (fun e => e.date == date) = (names.filterMap (rarExe dv)).filter fun e => e.date == date := by
  have hperm : (loadRepo dv names).Perm (names.filterMap (rarExe dv)) := by
    unfold loadRepo
    refine ((sortOn_perm _).map _).trans ?_
    rw [List.map_map]
    exact List.Perm.of_eq (by simp [Function.comp_def])
  have hall : ∀ x ∈ sortOn ((names.filterMap (rarExe dv)).map fun e => (e.date, e)), x.1 = x.2.date := by
    intro x hx
    obtain ⟨e, _, rfl⟩ := List.mem_map.1 ((sortOn_perm _).mem_iff.1 hx)
    rfl
  refine ⟨?_, ?_, hperm, ?_⟩
  · intro e
    rw [hperm.mem_iff, List.mem_filterMap]
  · unfold loadRepo
    rw [List.pairwise_map]
    refine (sortOn_sorted _).imp_of_mem ?_
    intro a b ha hb h
    unfold NotLater
    rw [← hall a ha, ← hall b hb]
    exact h
  · intro date
    unfold loadRepo
    have h := sortOn_filter date ((names.filterMap (rarExe dv)).map fun e => (e.date, e))
    have h2 : ∀ l : List (Str × RarExe), (∀ x ∈ l, x.1 = x.2.date) →
        (l.map (·.2)).filter (fun e => e.date == date) = (l.filter fun a => a.1 == date).map (·.2) := by
      intro l hl
      rw [List.filter_map]
      congr 1
      exact List.filter_congr fun x hx => by simp [hl x hx]
    rw [h2 _ hall, h, ← h2 _ (by
      intro x hx
      obtain ⟨e, _, rfl⟩ := List.mem_map.1 hx
      rfl), List.map_map]
    simp [Function.comp_def]

/-- C94: the most recent version is one of the latest date; there is none exactly when there is no executable, which is an error. -/
theorem repo_recent {dv : Nat → Option Nat} {names : List Str} :
    (∀ e, mostRecent (loadRepo dv names) = .ok e → e ∈ loadRepo dv names ∧ ∀ x ∈ loadRepo dv names, NotLater x e) ∧
    ((∀ n ∈ names, rarExe dv n = none) ↔ mostRecent (loadRepo dv names) = .error .emptyRepo) := by
  constructor
  · intro e h
    unfold mostRecent at h
    split at h
    · rename_i e' heq
      cases h
      obtain ⟨l, hl⟩ := List.getLast?_eq_some_iff.1 heq
      have hp := (repo_exact (dv := dv) (names := names)).2.1
      rw [hl] at hp ⊢
      refine ⟨by simp, ?_⟩
      intro x hx
      rcases List.mem_append.1 hx with hx | hx
      · exact (List.pairwise_append.1 hp).2.2 x hx e (by simp)
      · rw [List.mem_singleton] at hx
        subst hx
        rcases strLe_total x.date x.date with h | h <;> exact h
    · cases h
  · have h1 : (∀ n ∈ names, rarExe dv n = none) ↔ loadRepo dv names = [] := by
      rw [List.eq_nil_iff_forall_not_mem]
      simp only [(repo_exact (dv := dv) (names := names)).1]
      constructor
      · rintro h e ⟨n, hn, he⟩
        rw [h n hn] at he
        cases he
      · intro h n hn
        cases he : rarExe dv n with
        | none => rfl
        | some e => exact absurd ⟨n, hn, he⟩ (h e)
    rw [h1]
    unfold mostRecent
    constructor
    · intro h
      rw [h]
      rfl
    · intro h
      split at h
      · cases h
      · rename_i heq
        exact List.getLast?_eq_none_iff.1 heq

/-- C94: the order in which executables are tried for an archive of a date: each once; first the oldest that is not older than the
archive, then the older ones, the newest first, then the others, the oldest first. -/
theorem repo_order {repo : List RarExe} (hs : repo.Pairwise NotLater) (date : Str) :
    (executablesFor repo date).Perm repo ∧
    ((∃ e ∈ repo, strLe date e.date = true) → ∃ first rest, executablesFor repo date = first :: rest ∧ strLe date first.date = true ∧
      (∀ e ∈ repo, strLe date e.date = true → NotLater first e) ∧
      rest.Pairwise fun a b => (strLe date a.date = true → strLe date b.date = true ∧ NotLater a b) ∧
        (strLe date a.date = false → strLe date b.date = true ∨ NotLater b a)) ∧
    ((∀ e ∈ repo, strLe date e.date = false) → (executablesFor repo date).Pairwise fun a b => NotLater b a) := by
  have hold : ∀ e, RarExe.olderThan date e = true ↔ strLe date e.date = false := by
    intro e
    unfold RarExe.olderThan
    cases strLe date e.date <;> simp
  have hbefore : ((repo.filter (RarExe.olderThan date)).reverse).Pairwise fun a b => NotLater b a :=
    List.pairwise_reverse.2 (hs.filter _)
  have hafter : (repo.filter fun x => !RarExe.olderThan date x).Pairwise NotLater := hs.filter _
  have hp : ((repo.filter (RarExe.olderThan date)) ++ repo.filter fun x => !RarExe.olderThan date x).Perm repo :=
    List.filter_append_perm _ _
  unfold executablesFor rarExecutables
  simp only [List.nil_append]
  cases hf : repo.filter fun x => !RarExe.olderThan date x with
  | nil =>
    simp only
    rw [hf, List.append_nil] at hp
    refine ⟨(List.reverse_perm _).trans hp, ?_, fun _ => hbefore⟩
    rintro ⟨e, he, hle⟩
    have : e ∈ repo.filter fun x => !RarExe.olderThan date x := by
      rw [List.mem_filter]
      exact ⟨he, by simp [RarExe.olderThan, hle]⟩
    rw [hf] at this
    cases this
  | cons a after =>
    simp only
    rw [hf] at hp hafter
    have hmem : ∀ x ∈ a :: after, x ∈ repo ∧ strLe date x.date = true := by
      intro x hx
      rw [← hf, List.mem_filter] at hx
      refine ⟨hx.1, ?_⟩
      have := hx.2
      unfold RarExe.olderThan at this
      simpa using this
    refine ⟨?_, ?_, ?_⟩
    · refine List.Perm.trans ?_ hp
      simp only [List.singleton_append, List.cons_append]
      exact ((List.reverse_perm _).append_right _).cons a |>.trans List.perm_middle.symm
    · intro _
      refine ⟨a, (repo.filter (RarExe.olderThan date)).reverse ++ after, by simp, (hmem a (by simp)).2, ?_, ?_⟩
      · intro e he hle
        have : e ∈ a :: after := by
          rw [← hf, List.mem_filter]
          exact ⟨he, by simp [RarExe.olderThan, hle]⟩
        rcases List.mem_cons.1 this with rfl | h
        · rcases strLe_total e.date e.date with h | h <;> exact h
        · exact (List.pairwise_cons.1 hafter).1 e h
      · rw [List.pairwise_append]
        have hb : ∀ x ∈ (repo.filter (RarExe.olderThan date)).reverse, strLe date x.date = false := by
          intro x hx
          rw [List.mem_reverse, List.mem_filter] at hx
          exact (hold x).1 hx.2
        refine ⟨?_, ?_, ?_⟩
        · refine hbefore.imp_of_mem ?_
          intro x y hx hy hxy
          refine ⟨fun h => ?_, fun _ => Or.inr hxy⟩
          rw [hb x hx] at h
          cases h
        · refine ((List.pairwise_cons.1 hafter).2).imp_of_mem ?_
          intro x y hx hy hxy
          refine ⟨fun _ => ⟨(hmem y (by simp [hy])).2, hxy⟩, fun _ => Or.inl (hmem y (by simp [hy])).2⟩
        · intro x hx y hy
          refine ⟨fun h => ?_, fun _ => Or.inl (hmem y (by simp [hy])).2⟩
          rw [hb x hx] at h
          cases h
    · intro hno
      have := hno a (hmem a (by simp)).1
      rw [(hmem a (by simp)).2] at this
      cases this

/-! ### Filling the folder -/

theorem value_lt {dv : Nat → Option Nat} (hdv : DigitValues dv) : ∀ {d : Str} {n : Nat}, d.length = n → (∀ c ∈ d, (dv c).isSome = true) →
    digitsValue dv d < 10 ^ n := by
  have key : ∀ (d : Str) (acc : Nat), (∀ c ∈ d, (dv c).isSome = true) →
      d.foldl (fun n c => 10 * n + (dv c).getD 0) acc < (acc + 1) * 10 ^ d.length := by
    intro d
    induction d with
    | nil => intro acc _; simp
    | cons c d ih =>
      intro acc h
      have hc : (dv c).getD 0 < 10 := by
        cases hv : dv c with
        | none => simp
        | some v => exact hdv.2.2 c v hv
      have := ih (10 * acc + (dv c).getD 0) fun x hx => h x (by simp [hx])
      simp only [List.foldl_cons, List.length_cons]
      refine Nat.lt_of_lt_of_le this ?_
      rw [Nat.pow_succ, Nat.mul_comm (10 ^ d.length), ← Nat.mul_assoc]
      exact Nat.mul_le_mul_right _ (by omega)
  intro d n hl h
  have := key d 0 h
  rw [hl] at this
  simpa [digitsValue] using this

theorem firstWay_some {α : Type} {l : List (Option α)} {x : α} (h : firstWay l = some x) : some x ∈ l := by
  induction l with
  | nil => cases h
  | cons a l ih =>
    cases a with
    | some y => cases h; simp
    | none => exact List.mem_cons_of_mem _ (ih h)

theorem beta_some {dv : Nat → Option Nat} {taken : Bool} {s r : Str} {b : Option Str} (h : betaWay dv taken s = some (b, r)) :
    b = none ∨ ∃ k, b = some [0x62, k] ∧ (dv k).isSome = true := by
  unfold betaWay at h
  split at h
  · cases hb : takeBeta dv s with
    | none => rw [hb] at h; cases h
    | some x =>
      rw [hb] at h
      cases h
      unfold takeBeta at hb
      split at hb
      · rename_i k r
        split at hb
        · rename_i hk
          cases hb
          exact Or.inr ⟨k, rfl, hk⟩
        · cases hb
      · cases hb
  · cases h
    exact Or.inl rfl

/-- What is known about a version that was read. -/
def TagOk (dv : Nat → Option Nat) (t : RarTag) : Prop :=
  t.large < 10 ∧ t.small < 100 ∧ (t.beta = none ∨ ∃ k, t.beta = some [0x62, k] ∧ (dv k).isSome = true)

theorem tagOf_ok {dv : Nat → Option Nat} (hdv : DigitValues dv) {large small : Str} {beta : Option Str} {x64 : Bool}
    (hl : large.length = 1) (hl2 : ∀ c ∈ large, (dv c).isSome = true) (hs : small.length = 1 ∨ small.length = 2)
    (hs2 : ∀ c ∈ small, (dv c).isSome = true) (hb : beta = none ∨ ∃ k, beta = some [0x62, k] ∧ (dv k).isSome = true) :
    TagOk dv (tagOf dv large small beta x64) := by
  refine ⟨value_lt hdv hl hl2, ?_, hb⟩
  unfold tagOf
  simp only
  rcases hs with h | h
  · rw [if_pos h]
    have := value_lt hdv h hs2
    omega
  · rw [if_neg (by omega)]
    exact value_lt hdv h hs2

theorem tag_ok {dv : Nat → Option Nat} (hdv : DigitValues dv) {name : Str} {t : RarTag} (h : versionTag dv name = some t) : TagOk dv t := by
  have hwindows : ∀ {t : RarTag}, windowsTag dv name = some t → TagOk dv t := by
    intro t h
    unfold windowsTag at h
    split at h
    · cases h
    simp only at h
    split at h
    · cases h
    rename_i large s2 hlarge
    obtain ⟨_, hl1, hl2⟩ := digits_some hlarge
    obtain ⟨x, hx, rfl⟩ := Option.map_eq_some_iff.1 h
    have hway : ∃ n taken, (n = 1 ∨ n = 2) ∧ windowsWay dv s2 n taken = some x := by
      have := firstWay_some hx
      simp only [List.mem_cons, List.not_mem_nil, or_false] at this
      rcases this with h | h | h | h
      · exact ⟨2, true, Or.inr rfl, h.symm⟩
      · exact ⟨2, false, Or.inr rfl, h.symm⟩
      · exact ⟨1, true, Or.inl rfl, h.symm⟩
      · exact ⟨1, false, Or.inl rfl, h.symm⟩
    obtain ⟨n, taken, hn, hway⟩ := hway
    unfold windowsWay at hway
    split at hway
    · cases hway
    rename_i small s3 hsmall
    split at hway
    · cases hway
    rename_i beta s4 hbeta
    split at hway
    · cases hway
      obtain ⟨_, h1, h2⟩ := digits_some hsmall
      exact tagOf_ok hdv hl1 hl2 (by rw [h1]; exact hn) h2 (beta_some hbeta)
    · cases hway
  have hlinux : ∀ {t : RarTag}, linuxTag dv name = some t → TagOk dv t := by
    intro t h
    unfold linuxTag at h
    split at h
    · cases h
    simp only at h
    split at h
    · cases h
    rename_i large s3 hlarge
    obtain ⟨_, hl1, hl2⟩ := digits_some hlarge
    split at h
    · cases h
    rename_i s4 _
    obtain ⟨x, hx, rfl⟩ := Option.map_eq_some_iff.1 h
    have hway : ∃ two dot taken, linuxWay dv s4 two dot taken = some x := by
      have := firstWay_some hx
      simp only [List.mem_cons, List.not_mem_nil, or_false] at this
      rcases this with h | h | h | h | h | h | h | h <;> exact ⟨_, _, _, h.symm⟩
    obtain ⟨two, dot, taken, hway⟩ := hway
    unfold linuxWay at hway
    split at hway
    · cases hway
    rename_i small s5 hsmall
    split at hway
    · cases hway
    split at hway
    · cases hway
    rename_i beta s6 hbeta
    split at hway
    · cases hway
      have hsm : (small.length = 1 ∨ small.length = 2) ∧ ∀ c ∈ small, (dv c).isSome = true := by
        unfold smallWay at hsmall
        split at hsmall
        · cases hsmall
        rename_i a s7 ha
        obtain ⟨_, h1, h2⟩ := digits_some ha
        split at hsmall
        · split at hsmall
          · cases hsmall
          obtain ⟨y, hy, hy2⟩ := Option.map_eq_some_iff.1 hsmall
          cases hy2
          obtain ⟨_, h3, h4⟩ := digits_some (d := y.1) (r := y.2) hy
          refine ⟨Or.inr (by rw [List.length_append, h1, h3]), ?_⟩
          intro c hc
          rcases List.mem_append.1 hc with hc | hc
          · exact h2 c hc
          · exact h4 c hc
        · cases hsmall
          exact ⟨Or.inl h1, h2⟩
      exact tagOf_ok hdv hl1 hl2 hsm.1 hsm.2 (beta_some hbeta)
    · cases hway
  unfold versionTag at h
  split at h
  · rename_i heq
    cases h
    exact hwindows heq
  · exact hlinux h

set_option maxRecDepth 100000

theorem pad_two : ∀ n, n < 100 → zeroPad 2 n = digit (n / 10) ++ digit (n % 10) := by decide +kernel

theorem text_one : ∀ n, n < 10 → str (toString n) = digit n := by decide +kernel

theorem text_year : ∀ n, n < 128 → str (toString (1980 + n)) = digit ((1980 + n) / 1000) ++ digit ((1980 + n) / 100 % 10) ++
    digit ((1980 + n) / 10 % 10) ++ digit ((1980 + n) % 10) := by decide +kernel

theorem tag_text {dv : Nat → Option Nat} {t : RarTag} (h : TagOk dv t) :
    t.text = digit t.large ++ digit (t.small / 10) ++ digit (t.small % 10) ++ t.beta.getD [] := by
  unfold RarTag.text
  rw [text_one _ h.1, pad_two _ h.2.1]
  simp only [List.append_assoc]

/-- C94: an executable that was stored under its date and version is found again with this date and version. -/
theorem stored_loaded {dv : Nat → Option Nat} {a : RarSource} {t : RarTag} {date name : Str} {y m d : Nat} (hdv : DigitValues dv)
    (ht : versionTag dv a.name = some t) (hd : DateText date y m d) (hn : StoredAs a t date name) :
    rarExe dv name = some { name := name, date := date, major := t.large, minor := t.small, beta := t.beta } := by
  obtain ⟨hl, hs, hb⟩ := tag_ok hdv ht
  obtain ⟨hy, hm, hdd, hdate⟩ := hd
  have hsome : ∀ {k : Nat}, k < 10 → (dv (0x30 + k)).isSome = true := by
    intro k hk
    rw [dv_digit hdv hk]
    rfl
  have hrest : ∃ rest, name = ExeStart date t.large t.small ++ rest ∧
      (t.beta = none ∧ (∀ k r, rest = 0x62 :: k :: r → dv k = none) ∨
        ∃ k r, rest = 0x62 :: k :: r ∧ (dv k).isSome = true ∧ t.beta = some [0x62, k]) := by
    rcases hn with ⟨_, rfl⟩ | ⟨_, rfl⟩
    · refine ⟨t.beta.getD [], rfl, ?_⟩
      rcases hb with hb | ⟨k, hb, hk⟩
      · exact Or.inl ⟨hb, by rw [hb]; intro k r h; cases h⟩
      · exact Or.inr ⟨k, [], by rw [hb]; rfl, hk, hb⟩
    · refine ⟨t.beta.getD [] ++ str ".exe", by rw [List.append_assoc], ?_⟩
      rcases hb with hb | ⟨k, hb, hk⟩
      · refine Or.inl ⟨hb, ?_⟩
        rw [hb]
        intro k r h
        have := congrArg List.head? h
        exact absurd (Option.some.inj (this : some 0x2E = some 0x62)) (by decide)
      · exact Or.inr ⟨k, str ".exe", by rw [hb]; rfl, hk, hb⟩
  obtain ⟨rest, rfl, hrest⟩ := hrest
  subst hdate
  rw [exe_iff]
  refine ⟨digit (y / 1000) ++ digit (y / 100 % 10) ++ digit (y / 10 % 10) ++ digit (y % 10), digit (m / 10) ++ digit (m % 10),
    digit (d / 10) ++ digit (d % 10), digit t.large, digit (t.small / 10) ++ digit (t.small % 10), rest, ?_, rfl, rfl, rfl, rfl, rfl, ?_,
    rfl, ?_, ?_, ?_, hrest⟩
  · unfold ExeStart
    simp only [List.append_assoc]
  · intro c hc
    simp only [digit, List.mem_append, List.mem_singleton] at hc
    have hk : ∃ k, k < 10 ∧ c = 0x30 + k := by
      rcases hc with ((((((hc | hc) | hc) | hc) | hc | hc) | hc | hc) | hc) | hc | hc <;> exact ⟨_, by omega, hc⟩
    obtain ⟨k, hk, rfl⟩ := hk
    exact hsome hk
  · simp only [List.append_assoc]
  · exact (value_one hdv hl).symm
  · simp only [digit, List.singleton_append]
    rw [value_two hdv (by omega) (by omega)]
    omega

theorem accepted_iff {dv : Nat → Option Nat} {beta : Bool} {a : RarSource} {t : RarTag} : accepted dv beta a.name = some t ↔ Used dv beta a t := by
  unfold accepted Used
  cases hv : versionTag dv a.name with
  | none => simp
  | some t' =>
    simp only [Option.some.injEq]
    have hext : (!isIn (str ".exe") a.name && !isIn (str ".tar.gz") a.name && !isIn (str ".sfx") a.name) = true ↔
        ¬ (str ".exe" <:+: a.name ∨ str ".tar.gz" <:+: a.name ∨ str ".sfx" <:+: a.name) := by
      rw [← isIn_iff, ← isIn_iff, ← isIn_iff]
      cases isIn (str ".exe") a.name <;> cases isIn (str ".tar.gz") a.name <;> cases isIn (str ".sfx") a.name <;> simp
    by_cases h1 : (str ".exe" <:+: a.name ∨ str ".tar.gz" <:+: a.name ∨ str ".sfx" <:+: a.name)
    · rw [if_neg (fun h => hext.1 h h1)]
      by_cases h2 : t'.large < 2
      · rw [if_pos h2]
        constructor
        · intro h; cases h
        · rintro ⟨rfl, h3, _⟩
          omega
      · rw [if_neg h2]
        by_cases h3 : (!beta && t'.beta.isSome) = true
        · rw [if_pos h3]
          constructor
          · intro h; cases h
          · rintro ⟨rfl, _, h4, _⟩
            rcases h4 with h4 | h4 <;> simp [h4] at h3
        · rw [if_neg h3, Option.some.injEq]
          constructor
          · rintro rfl
            refine ⟨rfl, by omega, ?_, h1⟩
            cases hb : t'.beta with
            | none => exact Or.inl rfl
            | some k =>
              rw [hb] at h3
              exact Or.inr (by simpa using h3)
          · rintro ⟨rfl, _⟩
            rfl
    · rw [if_pos (hext.2 h1)]
      constructor
      · intro h; cases h
      · rintro ⟨_, _, _, h4⟩
        exact absurd h4 h1

theorem member_loop {l : List (Option (Str × Nat × Nat × Nat))} {e : Option Err} {date member : Str}
    (hok : ∀ n y m d, some (n, y, m, d) ∈ l → 1980 ≤ y ∧ y ≤ 2107 ∧ m < 16 ∧ d < 32)
    (h : memberLoop (l, e) = .ok (some (date, member))) :
    (∃ pre n y m d post, l = pre ++ some (n, y, m, d) :: post ∧ n ∈ rarMembers ∧
      (∀ n' y' m' d', some (n', y', m', d') ∈ pre → n' ∉ rarMembers) ∧ DateText date y m d) ∧ member ∈ tempNames := by
  induction l with
  | nil => cases e <;> simp [memberLoop] at h
  | cons x l ih =>
    have hok' : ∀ n y m d, some (n, y, m, d) ∈ l → 1980 ≤ y ∧ y ≤ 2107 ∧ m < 16 ∧ d < 32 :=
      fun n y m d hm => hok n y m d (by simp [hm])
    cases x with
    | none =>
      unfold memberLoop at h
      obtain ⟨⟨pre, n, y, m, d, post, h1, h2, h3, h4⟩, h5⟩ := ih hok' h
      refine ⟨⟨none :: pre, n, y, m, d, post, by rw [h1]; rfl, h2, ?_, h4⟩, h5⟩
      intro n' y' m' d' hm
      rcases List.mem_cons.1 hm with hm | hm
      · cases hm
      · exact h3 n' y' m' d' hm
    | some x =>
      obtain ⟨n, y, m, d⟩ := x
      unfold memberLoop at h
      by_cases hn : rarMembers.contains n = true
      · have hn2 : n ∈ rarMembers := List.contains_iff_mem.1 hn
        rw [if_pos hn] at h
        have hj : ∃ os ∈ tempNames, joinpath (splitOn 0x5C n) [] = .ok os := by
          unfold rarMembers at hn2
          simp only [List.mem_cons, List.not_mem_nil, or_false] at hn2
          rcases hn2 with rfl | rfl | rfl | rfl
          · exact ⟨str "Rar.exe", by decide +kernel, by decide +kernel⟩
          · exact ⟨str "Rar.Exe", by decide +kernel, by decide +kernel⟩
          · exact ⟨str "rar/rar", by decide +kernel, by decide +kernel⟩
          · exact ⟨str "rar", by decide +kernel, by decide +kernel⟩
        obtain ⟨os, hos, hj⟩ := hj
        rw [hj] at h
        cases h
        obtain ⟨h1, h2, h3, h4⟩ := hok n y m d (by simp)
        refine ⟨⟨[], n, y, m, d, l, rfl, hn2, by simp, by omega, by omega, by omega, ?_⟩, hos⟩
        have := text_year (y - 1980) (by omega)
        rw [show 1980 + (y - 1980) = y from by omega] at this
        rw [this, pad_two m (by omega), pad_two d (by omega)]
        simp only [List.append_assoc]
      · rw [if_neg hn] at h
        obtain ⟨⟨pre, n', y', m', d', post, h1, h2, h3, h4⟩, h5⟩ := ih hok' h
        refine ⟨⟨some (n, y, m, d) :: pre, n', y', m', d', post, by rw [h1]; rfl, h2, ?_, h4⟩, h5⟩
        intro n2 y2 m2 d2 hm
        rcases List.mem_cons.1 hm with hm | hm
        · cases hm
          simpa using hn
        · exact h3 n2 y2 m2 d2 hm

theorem member_first {pre post : List (Option (Str × Nat × Nat × Nat))} {e : Option Err} {n date : Str} {y m d : Nat}
    (hy : 1980 ≤ y ∧ y ≤ 2107) (hn : n ∈ rarMembers) (hpre : ∀ n' y' m' d', some (n', y', m', d') ∈ pre → n' ∉ rarMembers)
    (hd : DateText date y m d) : ∃ member, memberLoop (pre ++ some (n, y, m, d) :: post, e) = .ok (some (date, member)) := by
  induction pre with
  | nil =>
    have hj : ∃ os, joinpath (splitOn 0x5C n) [] = .ok os := by
      unfold rarMembers at hn
      simp only [List.mem_cons, List.not_mem_nil, or_false] at hn
      rcases hn with rfl | rfl | rfl | rfl <;> exact ⟨_, rfl⟩
    obtain ⟨os, hj⟩ := hj
    refine ⟨os, ?_⟩
    rw [List.nil_append]
    unfold memberLoop
    rw [if_pos (List.contains_iff_mem.2 hn), hj]
    obtain ⟨_, h2, h3, rfl⟩ := hd
    have := text_year (y - 1980) (by omega)
    rw [show 1980 + (y - 1980) = y from by omega] at this
    simp only [this, pad_two m h2, pad_two d h3, List.append_assoc]
  | cons x pre ih =>
    obtain ⟨member, h⟩ := ih fun n' y' m' d' hm => hpre n' y' m' d' (by simp [hm])
    refine ⟨member, ?_⟩
    rw [List.cons_append]
    cases x with
    | none => unfold memberLoop; exact h
    | some x =>
      obtain ⟨n', y', m', d'⟩ := x
      unfold memberLoop
      rw [if_neg]
      · exact h
      · intro hc
        exact hpre n' y' m' d' (by simp) (List.contains_iff_mem.1 hc)

theorem ends_iff (a : RarSource) : (endsWith a.name (str ".exe") || endsWith a.name (str ".sfx")) = true ↔
    (str ".exe" <:+ a.name ∨ str ".sfx" <:+ a.name) := by
  unfold endsWith
  rw [Bool.or_eq_true, List.isSuffixOf_iff_suffix, List.isSuffixOf_iff_suffix]

theorem dateName_is {a : RarSource} (hok : DatesOk a) {date member : Str} (h : dateName a = .ok (some (date, member))) :
    DateIs a date ∧ member ∈ tempNames ∧ ∃ y m d, DateText date y m d := by
  unfold dateName at h
  by_cases he : (endsWith a.name (str ".exe") || endsWith a.name (str ".sfx")) = true
  · rw [if_pos he] at h
    obtain ⟨h1, h2⟩ := member_loop (l := a.blocks.1) (e := a.blocks.2) hok.1 h
    refine ⟨Or.inl ⟨(ends_iff a).1 he, h1⟩, h2, ?_⟩
    obtain ⟨_, _, y, m, d, _, _, _, _, h5⟩ := h1
    exact ⟨y, m, d, h5⟩
  · rw [if_neg he] at h
    split at h
    · rename_i d b heq
      cases h
      exact ⟨Or.inr ⟨fun hh => he ((ends_iff a).2 hh), b, heq⟩, by decide +kernel, hok.2 _ _ heq⟩
    · cases h
    · cases h

theorem dateIs_name {a : RarSource} (hok : DatesOk a) {date : Str} (h : DateIs a date) : ∃ member, dateName a = .ok (some (date, member)) := by
  unfold dateName
  rcases h with ⟨he, pre, n, y, m, d, post, h1, h2, h3, h4⟩ | ⟨he, b, h1⟩
  · rw [if_pos ((ends_iff a).2 he), show a.blocks = (pre ++ some (n, y, m, d) :: post, a.blocks.2) from by rw [← h1]]
    have := hok.1 n y m d (by rw [h1]; simp)
    exact member_first ⟨this.1, this.2.1⟩ h2 h3 h4
  · rw [if_neg (fun hh => he ((ends_iff a).1 hh)), h1]
    exact ⟨_, rfl⟩

theorem exeName_is {dv : Nat → Option Nat} (hdv : DigitValues dv) {a : RarSource} {t : RarTag} (ht : versionTag dv a.name = some t) (date : Str) :
    StoredAs a t date (exeName a t date) := by
  have htext := tag_text (tag_ok hdv ht)
  unfold exeName StoredAs ExeStart
  rw [htext]
  by_cases h1 : a.tar.isSome = true
  · rw [if_pos h1]
    refine Or.inl ⟨Or.inl ?_, by simp only [List.append_assoc]⟩
    intro h
    rw [h] at h1
    cases h1
  · rw [if_neg h1]
    have h1' : a.tar = none := by simpa using h1
    by_cases h2 : isIn (str ".sfx") a.name = true
    · rw [if_pos h2]
      exact Or.inl ⟨Or.inr ((isIn_iff _ _).1 h2), by simp only [List.append_assoc]⟩
    · rw [if_neg h2]
      exact Or.inr ⟨⟨h1', fun h => h2 ((isIn_iff _ _).2 h)⟩, by simp only [List.append_assoc]⟩

theorem storedAs_unique {a : RarSource} {t : RarTag} {date n1 n2 : Str} (h1 : StoredAs a t date n1) (h2 : StoredAs a t date n2) : n1 = n2 := by
  rcases h1 with ⟨h1, rfl⟩ | ⟨h1, rfl⟩
  · rcases h2 with ⟨h2, rfl⟩ | ⟨h2, rfl⟩
    · rfl
    · rcases h1 with h | h
      · exact absurd h2.1 h
      · exact absurd h h2.2
  · rcases h2 with ⟨h2, rfl⟩ | ⟨h2, rfl⟩
    · rcases h2 with h | h
      · exact absurd h1.1 h
      · exact absurd h h1.2
    · rfl

theorem holds_unique {a : RarSource} {b1 b2 : Bytes} (h1 : Holds a b1) (h2 : Holds a b2) : b1 = b2 := by
  rcases h1 with ⟨d, h1⟩ | ⟨h1, _, rfl⟩
  · rcases h2 with ⟨d2, h2⟩ | ⟨h2, _, rfl⟩
    · rw [h1] at h2; cases h2; rfl
    · rw [h1] at h2; cases h2
  · rcases h2 with ⟨d2, h2⟩ | ⟨h2, _, rfl⟩
    · rw [h1] at h2; cases h2
    · rfl

theorem puts_unique {dv : Nat → Option Nat} {beta : Bool} {dest : Path} {a : RarSource} (hok : DatesOk a) {q1 q2 : Path} {b1 b2 : Bytes}
    (h1 : Puts dv beta dest a q1 b1) (h2 : Puts dv beta dest a q2 b2) : q1 = q2 ∧ b1 = b2 := by
  obtain ⟨t1, d1, n1, u1, dt1, ho1, s1, rfl⟩ := h1
  obtain ⟨t2, d2, n2, u2, dt2, ho2, s2, rfl⟩ := h2
  have ht : t1 = t2 := Option.some.inj (u1.1.symm.trans u2.1)
  subst ht
  obtain ⟨m1, e1⟩ := dateIs_name hok dt1
  obtain ⟨m2, e2⟩ := dateIs_name hok dt2
  rw [e1] at e2
  cases e2
  rw [storedAs_unique s1 s2]
  exact ⟨rfl, holds_unique ho1 ho2⟩

/-- An absolute folder other than `/`, as `os.path.abspath` gives it. -/
def FolderOk (dest : Path) : Prop := dest ≠ [] ∧ dest.getLast? ≠ some 0x2F

theorem join_dest {dest : Path} (hd : FolderOk dest) {x : Str} (hx : x.head? ≠ some 0x2F) : posixJoin2 dest x = dest ++ str "/" ++ x := by
  unfold posixJoin2
  rw [if_neg hx, if_neg (by
    rintro (h | h)
    · exact hd.1 h
    · exact hd.2 h), List.append_assoc]
  rfl

theorem start_char {date : Str} {y m d : Nat} (h : DateText date y m d) : ∃ c r, date = c :: r ∧ c ≠ 0x2F := by
  obtain ⟨_, _, _, rfl⟩ := h
  refine ⟨0x30 + y / 1000, _, rfl, by omega⟩

theorem stored_start {a : RarSource} {t : RarTag} {date name : Str} (h : StoredAs a t date name) : ∃ r, name = date ++ str "_rar" ++ r := by
  unfold StoredAs ExeStart at h
  rcases h with ⟨_, rfl⟩ | ⟨_, rfl⟩
  · exact ⟨_, by simp only [List.append_assoc]; rfl⟩
  · exact ⟨_, by simp only [List.append_assoc]; rfl⟩

theorem stored_not_temp {a : RarSource} {t : RarTag} {date name : Str} (h : StoredAs a t date name) {x : Str}
    (hx : x ∈ tempNames ∨ ∃ y ∈ tempNames, x = basename y) : name ≠ x := by
  obtain ⟨r, rfl⟩ := stored_start h
  intro he
  have h1 : 0x5F ∈ x := by
    rw [← he, show str "_rar" = 0x5F :: str "rar" from rfl]
    simp
  have h2 : ∀ z ∈ tempNames, 0x5F ∉ z ∧ 0x5F ∉ basename z := by decide +kernel
  rcases hx with hx | ⟨y, hy, rfl⟩
  · exact (h2 x hx).1 h1
  · exact (h2 y hy).2 h1

/-- One archive: nothing but a temporary name is lost, and at most one file is written. -/
theorem prepOne_step {dv : Nat → Option Nat} {beta : Bool} {dest : Path} {fs fs' : FS} {a : RarSource} (hdv : DigitValues dv) (hok : DatesOk a)
    (hd : FolderOk dest) (h : prepOne dv beta dest fs a = .ok fs') :
    ((∀ q b, ¬ Puts dv beta dest a q b) ∧ (fs' = fs ∨ ∃ x ∈ tempNames, fs' = fs.set (dest ++ str "/" ++ x) none)) ∨
    ∃ q b x, Puts dv beta dest a q b ∧ x ∈ tempNames ∧ fs' = (fs.set (dest ++ str "/" ++ x) none).set q (some b) := by
  have hbase : ∀ y ∈ tempNames, basename y ∈ tempNames := by decide +kernel
  have hhead : ∀ y ∈ tempNames, y.head? ≠ some 0x2F := by decide +kernel
  unfold prepOne at h
  split at h
  · rename_i hacc
    cases h
    refine Or.inl ⟨?_, Or.inl rfl⟩
    rintro q b ⟨t, _, _, hu, _⟩
    rw [← accepted_iff, hacc] at hu
    cases hu
  rename_i t hacc
  have hu := accepted_iff.1 hacc
  split at h
  · cases h
  · rename_i hdn
    cases h
    refine Or.inl ⟨?_, Or.inl rfl⟩
    rintro q b ⟨t', date, _, _, hdt, _⟩
    obtain ⟨m, hm⟩ := dateIs_name hok hdt
    rw [hdn] at hm
    cases hm
  rename_i date member hdn
  obtain ⟨hdt, hmem, y, m, d, hdtext⟩ := dateName_is hok hdn
  have hst := exeName_is hdv hu.1 date
  have hjoin : posixJoin2 dest (exeName a t date) = dest ++ str "/" ++ exeName a t date := by
    refine join_dest hd ?_
    obtain ⟨r, hr⟩ := stored_start hst
    obtain ⟨c, r', hc, hne⟩ := start_char hdtext
    rw [hr, hc]
    simpa using hne
  split at h
  · cases h
  · rename_i d' bytes htar
    cases h
    refine Or.inr ⟨dest ++ str "/" ++ exeName a t date, bytes, str "rar/rar", ⟨t, date, _, hu, hdt, Or.inl ⟨_, htar⟩, hst, rfl⟩, by decide +kernel, ?_⟩
    rw [hjoin, join_dest hd (by decide)]
  · rename_i htar
    by_cases hc : a.code = 0 ∨ a.code = 1
    · rw [if_pos hc] at h
      cases h
      refine Or.inr ⟨dest ++ str "/" ++ exeName a t date, a.unpacked, basename member, ⟨t, date, _, hu, hdt, Or.inr ⟨htar, hc, rfl⟩, hst, rfl⟩,
        hbase _ hmem, ?_⟩
      rw [hjoin, join_dest hd (hhead _ (hbase _ hmem))]
    · rw [if_neg hc] at h
      split at h
      · cases h
        refine Or.inl ⟨?_, Or.inr ⟨member, hmem, by rw [join_dest hd (hhead _ hmem)]⟩⟩
        rintro q b ⟨_, _, _, _, _, hh, _⟩
        rcases hh with ⟨_, hh⟩ | ⟨_, hh, _⟩
        · rw [htar] at hh; cases hh
        · exact hc hh
      · cases h

theorem puts_not_temp {dv : Nat → Option Nat} {beta : Bool} {dest : Path} {a : RarSource} {q : Path} {b : Bytes} (h : Puts dv beta dest a q b)
    {x : Str} (hx : x ∈ tempNames) : q ≠ dest ++ str "/" ++ x := by
  obtain ⟨t, date, name, _, _, _, hs, rfl⟩ := h
  intro he
  exact stored_not_temp hs (Or.inl hx) (List.append_cancel_left he)

/-- C94: when all archives could be read, each executable that could be extracted is in the folder under its date and version, unless
another archive has the same date and version; nothing else is written, and besides the names that UnRAR and tar use nothing is lost. -/
theorem prep_partial {dv : Nat → Option Nat} {beta : Bool} {dest : Path} {l : List RarSource} (hdv : DigitValues dv)
    (hok : ∀ a ∈ l, DatesOk a) (hd : FolderOk dest) : ∀ {fs fs' : FS}, prepAll dv beta dest fs l = (fs', none) →
    (∀ a l1 l2 q b, l = l1 ++ a :: l2 → Puts dv beta dest a q b → (∀ a' ∈ l2, ∀ b', ¬ Puts dv beta dest a' q b') → fs' q = some b) ∧
    (∀ q b, fs' q = some b → fs q = some b ∨ ∃ a ∈ l, Puts dv beta dest a q b) ∧
    ∀ q, (∀ a ∈ l, ∀ b, ¬ Puts dv beta dest a q b) → (∀ x ∈ tempNames, q ≠ dest ++ str "/" ++ x) → fs' q = fs q := by
  induction l with
  | nil =>
    intro fs fs' h
    cases h
    refine ⟨?_, fun q b h => Or.inl h, fun q _ _ => rfl⟩
    intro a l1 l2 q b h
    cases l1 <;> cases h
  | cons a l ih =>
    intro fs fs' h
    unfold prepAll at h
    split at h
    · cases h
    rename_i fs1 h1
    obtain ⟨i1, i2, i3⟩ := ih (fun a' ha' => hok a' (by simp [ha'])) h
    have hoka := hok a (by simp)
    rcases prepOne_step hdv hoka hd h1 with ⟨hno, hfs⟩ | ⟨q0, b0, x0, hp, hx0, rfl⟩
    · have hback : ∀ q b, fs1 q = some b → fs q = some b := by
        intro q b hq
        rcases hfs with rfl | ⟨x, _, rfl⟩
        · exact hq
        · by_cases hqx : q = dest ++ str "/" ++ x
          · subst hqx
            rw [FS.set_eq] at hq
            cases hq
          · rwa [FS.set_ne _ _ hqx] at hq
      refine ⟨?_, ?_, ?_⟩
      · intro a' l1 l2 q b hl hq hlast
        cases l1 with
        | nil =>
          cases hl
          exact absurd hq (hno q b)
        | cons _ l1 =>
          cases hl
          exact i1 a' l1 l2 q b rfl hq hlast
      · intro q b hq
        rcases i2 q b hq with hq | ⟨a', ha', hq⟩
        · exact Or.inl (hback q b hq)
        · exact Or.inr ⟨a', by simp [ha'], hq⟩
      · intro q hn ht
        rw [i3 q (fun a' ha' => hn a' (by simp [ha'])) ht]
        rcases hfs with rfl | ⟨x, hx, rfl⟩
        · rfl
        · rw [FS.set_ne _ _ (ht x hx)]
    · refine ⟨?_, ?_, ?_⟩
      · intro a' l1 l2 q b hl hq hlast
        cases l1 with
        | nil =>
          cases hl
          obtain ⟨rfl, rfl⟩ := puts_unique hoka hp hq
          rw [i3 q0 hlast (fun x hx => puts_not_temp hp hx), FS.set_eq]
        | cons _ l1 =>
          cases hl
          exact i1 a' l1 l2 q b rfl hq hlast
      · intro q b hq
        rcases i2 q b hq with hq | ⟨a', ha', hq⟩
        · by_cases hqq : q = q0
          · subst hqq
            rw [FS.set_eq] at hq
            cases hq
            exact Or.inr ⟨a, by simp, hp⟩
          · rw [FS.set_ne _ _ hqq] at hq
            by_cases hqx : q = dest ++ str "/" ++ x0
            · subst hqx
              rw [FS.set_eq] at hq
              cases hq
            · rw [FS.set_ne _ _ hqx] at hq
              exact Or.inl hq
        · exact Or.inr ⟨a', by simp [ha'], hq⟩
      · intro q hn ht
        rw [i3 q (fun a' ha' => hn a' (by simp [ha'])) ht, FS.set_ne _ _ (by
          rintro rfl
          exact hn a (by simp) _ hp), FS.set_ne _ _ (ht x0 hx0)]

/-! ### Examples and disagreements -/

/-- The digits of ASCII. -/
def asciiValue (c : Nat) : Option Nat := if 0x30 ≤ c ∧ c ≤ 0x39 then some (c - 0x30) else none

theorem asciiValue_ok : DigitValues asciiValue := by
  refine ⟨?_, ?_, ?_⟩
  · intro d hd
    unfold asciiValue
    rw [if_pos (by omega)]
    simp
  · intro c _ h
    unfold asciiValue
    rw [if_neg h]
  · intro c v h
    unfold asciiValue at h
    split at h
    · cases h
      omega
    · cases h

example : versionTag asciiValue (str "wrar521b1.exe") = some ⟨5, 21, some (str "b1"), false⟩ ∧
    versionTag asciiValue (str "winrar-x64-420.exe") = some ⟨4, 20, none, true⟩ ∧
    versionTag asciiValue (str "wrar29.exe") = some ⟨2, 90, none, false⟩ ∧
    versionTag asciiValue (str "rarlinux-x64-5.2.1.b3.tar.gz") = some ⟨5, 21, some (str "b3"), true⟩ ∧
    versionTag asciiValue (str "rarbsd-3.8.tar.gz") = some ⟨3, 80, none, false⟩ ∧ versionTag asciiValue (str "readme.txt") = none := by decide +kernel

/-- The hypotheses of `windows_tag` and `linux_tag`. -/
example : (⟨5, 2, some 1, some 1⟩ : Version).Ok ∧ OtherText asciiValue (str ".exe") ∧
    str "wrar" ++ [] ++ (⟨5, 2, some 1, some 1⟩ : Version).plain ++ str ".exe" = str "wrar521b1.exe" ∧
    str "rar" ++ str "linux" ++ str "-" ++ str "x64-" ++ (⟨5, 2, some 1, some 3⟩ : Version).dotted true ++ str ".tar.gz" ++ [] =
      str "rarlinux-x64-5.2.1.b3.tar.gz" := by
  refine ⟨⟨by decide, by decide, ?_, ?_⟩, ⟨0x2E, str "exe", rfl, by decide, by decide, fun h => absurd h.1 (by decide)⟩, by decide +kernel, by decide +kernel⟩
  · rintro d ⟨⟩; decide
  · rintro d ⟨⟩; decide

/-- A folder of executables. -/
def exNames : List Str := [str "2012-06-09_rar420.exe", str "2004-05-10_rar330.exe", str "rarreg.key", str "2012-06-09_rar420b1", str "2008-09-22_rar380"]

example : (loadRepo asciiValue exNames).map (·.name) =
    [str "2004-05-10_rar330.exe", str "2008-09-22_rar380", str "2012-06-09_rar420.exe", str "2012-06-09_rar420b1"] ∧
    (executablesFor (loadRepo asciiValue exNames) (str "2009-01-01")).map (·.name) =
    [str "2012-06-09_rar420.exe", str "2008-09-22_rar380", str "2004-05-10_rar330.exe", str "2012-06-09_rar420b1"] := by decide +kernel

/-- Two archives of one version for Windows, and one for Linux. -/
def exWrar : RarSource := { name := str "wrar420.exe", blocks := ([none, some (str "Rar.exe", 2012, 6, 9)], none), tar := none, unpacked := [1], code := 0 }
def exWinrar : RarSource := { name := str "winrar-x64-420.exe", blocks := ([some (str "Rar.exe", 2012, 6, 9)], none), tar := none, unpacked := [2], code := 1 }
def exRarlinux : RarSource := { name := str "rarlinux-4.2.0.tar.gz", blocks := ([], none), tar := some (some (str "2012-06-09", [3])), unpacked := [], code := 0 }

/-- The hypotheses of `prep_partial` for archives with different names, and what comes of it. -/
example : (∀ a ∈ [exWrar, exRarlinux], DatesOk a) ∧ FolderOk (str "/rar") ∧
    (prepAll asciiValue false (str "/rar") (fun _ => none) [exWrar, exRarlinux]).2 = none ∧
    (prepAll asciiValue false (str "/rar") (fun _ => none) [exWrar, exRarlinux]).1 (str "/rar/2012-06-09_rar420.exe") = some [1] ∧
    (prepAll asciiValue false (str "/rar") (fun _ => none) [exWrar, exRarlinux]).1 (str "/rar/2012-06-09_rar420") = some [3] := by
  refine ⟨?_, ⟨by decide, by decide⟩, by decide +kernel, by decide +kernel, by decide +kernel⟩
  intro a ha
  simp only [List.mem_cons, List.not_mem_nil, or_false] at ha
  rcases ha with rfl | rfl
  · refine ⟨?_, ?_⟩
    · intro n y m d h
      simp only [exWrar, List.mem_cons, List.not_mem_nil, or_false] at h
      rcases h with h | h <;> cases h
      decide
    · intro date b h
      cases h
  · refine ⟨?_, ?_⟩
    · intro n y m d h
      cases h
    · intro date b h
      cases h
      exact ⟨2012, 6, 9, by decide, by decide, by decide, by decide +kernel⟩

/-- C94 does not hold for the 32 and 64 bit archives of one version: both get the same name, and only the last one is kept. -/
theorem bits_lost : ∃ fs, prepAll asciiValue false (str "/rar") (fun _ => none) [exWrar, exWinrar] = (fs, none) ∧
    Holds exWrar [1] ∧ fs (str "/rar/2012-06-09_rar420.exe") = some [2] ∧ ∀ q, fs q ≠ some [1] := by
  have hok : ∀ a ∈ [exWrar, exWinrar], DatesOk a := by
    intro a ha
    simp only [List.mem_cons, List.not_mem_nil, or_false] at ha
    rcases ha with rfl | rfl
    · refine ⟨?_, fun _ _ h => by cases h⟩
      intro n y m d h
      simp only [exWrar, List.mem_cons, List.not_mem_nil, or_false] at h
      rcases h with h | h <;> cases h
      decide
    · refine ⟨?_, fun _ _ h => by cases h⟩
      intro n y m d h
      simp only [exWinrar, List.mem_cons, List.not_mem_nil, or_false] at h
      cases h
      decide
  cases hp : prepAll asciiValue false (str "/rar") (fun _ => none) [exWrar, exWinrar] with
  | mk fs err =>
    have herr : err = none := by
      have : (prepAll asciiValue false (str "/rar") (fun _ => none) [exWrar, exWinrar]).2 = none := by decide +kernel
      rw [hp] at this
      exact this
    subst herr
    have h2 : fs (str "/rar/2012-06-09_rar420.exe") = some [2] := by
      have : (prepAll asciiValue false (str "/rar") (fun _ => none) [exWrar, exWinrar]).1 (str "/rar/2012-06-09_rar420.exe") = some [2] := by decide +kernel
      rw [hp] at this
      exact this
    refine ⟨fs, rfl, Or.inr ⟨rfl, Or.inl rfl, rfl⟩, h2, ?_⟩
    intro q hq
    have hd : FolderOk (str "/rar") := ⟨by decide, by decide⟩
    obtain ⟨_, i2, _⟩ := prep_partial asciiValue_ok hok hd hp
    rcases i2 q [1] hq with h | ⟨a, ha, h⟩
    · cases h
    · simp only [List.mem_cons, List.not_mem_nil, or_false] at ha
      rcases ha with rfl | rfl
      · have h3 : Puts asciiValue false (str "/rar") exWrar (str "/rar/2012-06-09_rar420.exe") [1] := by
          refine ⟨⟨4, 20, none, false⟩, str "2012-06-09", str "2012-06-09_rar420.exe", accepted_iff.1 (by decide +kernel), ?_,
            Or.inr ⟨rfl, Or.inl rfl, rfl⟩, Or.inr ⟨⟨rfl, ?_⟩, by decide +kernel⟩, by decide +kernel⟩
          · exact Or.inl ⟨Or.inl (by decide +kernel), [none], str "Rar.exe", 2012, 6, 9, [], rfl, by decide +kernel, (by
              intro n y m d h
              simp at h), by decide, by decide, by decide, by decide +kernel⟩
          · rw [← isIn_iff]
            decide +kernel
        have h4 := (puts_unique (hok _ (by simp)) h h3).1
        rw [h4, h2] at hq
        exact absurd hq (by decide)
      · obtain ⟨_, _, _, _, _, hh, _⟩ := h
        rcases hh with ⟨_, hh⟩ | ⟨_, _, hh⟩
        · cases hh
        · exact absurd hh (by decide)

/-- C94 does not hold for other files that are named like this: every one of them is an executable. -/
theorem text_loaded : ((rarExe asciiValue (str "2012-06-09_rar420.txt")).map fun e => (e.date, e.major, e.minor)) = some (str "2012-06-09", 4, 20) := by
  decide +kernel

/-- C94 does not hold after an exit code without a text (11 is a wrong password): the archives that follow are left out. -/
theorem code_stops : ∃ fs, prepAll asciiValue false (str "/rar") (fun _ => none) [{ exWinrar with code := 11 }, exRarlinux] = (fs, some .keyError) ∧
    fs (str "/rar/2012-06-09_rar420") = none := by
  refine ⟨_, Prod.ext rfl ?_, ?_⟩ <;> decide +kernel

end Rescene.Props
