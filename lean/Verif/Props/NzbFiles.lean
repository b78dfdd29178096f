import Verif.Spec.NzbFiles
import Verif.Lemmas.AutoStore
import Verif.Lemmas.Release
/-
C98: what srr_usenet.py takes from an NZB.
-/
namespace Rescene.Props
open Rescene Rescene.Spec

/-! ### Names -/

theorem dropWhile_no {p : Nat → Bool} : ∀ {a : Str} {b : Str}, (∀ c ∈ a, p c = true) → (a ++ b).dropWhile p = b.dropWhile p
  | [], _, _ => rfl
  | c :: a, b, h => by
    rw [List.cons_append, List.dropWhile_cons, h c (by simp)]
    exact dropWhile_no fun x hx => h x (by simp [hx])

theorem dropWhile_stay {p : Nat → Bool} {l : Str} (h : ∀ c ∈ l, p c = false) : l.dropWhile p = l := by
  cases l with
  | nil => rfl
  | cons c t => rw [List.dropWhile_cons, h c (by simp)]; rfl

/-- C98.  The name between the quotes of a subject is found. -/
theorem parse_quoted (dig : Nat → Bool) (pre name post : Str) (h1 : 0x22 ∉ pre) (h2 : 0x22 ∉ name) (h3 : 0x22 ∉ post) :
    parseName dig (pre ++ [0x22] ++ name ++ [0x22] ++ post) = name := by
  have hq : ∀ {l : Str}, 0x22 ∉ l → ∀ c ∈ l, (c != 0x22) = true := by
    intro l hl c hc
    simp only [bne_iff_ne, ne_eq]
    rintro rfl
    exact hl hc
  have hq' : ∀ {l : Str}, 0x22 ∉ l → ∀ c ∈ l, (c == 0x22) = false := by
    intro l hl c hc
    have := hq hl c hc
    simpa using this
  have hs : stripQuotes name = name := by
    unfold stripQuotes
    rw [dropWhile_stay (hq' h2), dropWhile_stay (hq' (by simpa using h2)), List.reverse_reverse]
  have hp : parseQuoted (pre ++ [0x22] ++ name ++ [0x22] ++ post) = some name := by
    unfold parseQuoted
    rw [show pre ++ [0x22] ++ name ++ [0x22] ++ post = pre ++ (0x22 :: (name ++ (0x22 :: post))) by simp, dropWhile_no (hq h1)]
    rw [show (0x22 :: (name ++ (0x22 :: post)) : Str).dropWhile (· != 0x22) = 0x22 :: (name ++ (0x22 :: post)) by rw [List.dropWhile_cons]; rfl]
    simp only
    rw [show (name ++ (0x22 :: post)).reverse = post.reverse ++ (0x22 :: name.reverse) by simp, dropWhile_no (hq (by simpa using h3))]
    rw [show (0x22 :: name.reverse : Str).dropWhile (· != 0x22) = 0x22 :: name.reverse by rw [List.dropWhile_cons]; rfl]
    simp only [List.reverse_reverse, hs]
  unfold parseName
  rw [hp]

theorem findSome_last {β : Type} {g : Nat → Option β} {m : Nat} {x : β} (hx : g m = some x) :
    ∀ (L : Nat), m ≤ L → (∀ n, m < n → n ≤ L → g n = none) → (List.range (L + 1)).reverse.findSome? g = some x := by
  intro L
  induction L with
  | zero => intro h _; have : m = 0 := by omega
            subst this; simp [List.range_succ, hx]
  | succ L ih =>
    intro h hn
    rw [List.range_succ, List.reverse_append, List.reverse_singleton, List.singleton_append, List.findSome?_cons]
    by_cases hm : m = L + 1
    · subst hm; rw [hx]
    · rw [hn (L + 1) (by omega) (Nat.le_refl _)]
      exact ih (by omega) fun n h1 h2 => hn n h1 (by omega)

theorem nameBefore_none (dig : Nat → Bool) {r : Str} (h : 0x20 ∉ r) : nameBefore dig r = none := by
  unfold nameBefore
  rw [List.findSome?_eq_none_iff]
  intro k _
  split
  · rename_i c t hd
    exact absurd (List.mem_of_mem_drop (by rw [hd]; simp : 0x20 ∈ r.drop k)) h
  · rfl

theorem nameBefore_name (dig : Nat → Bool) {name : Str} {c : Nat} {rest : Str} (hr : 0x20 ∉ c :: rest) (hc : counterChar dig c = true) :
    nameBefore dig (name ++ 0x20 :: c :: rest) = some name := by
  unfold nameBefore
  refine findSome_last (m := name.length) ?_ _ (by simp) ?_
  · simp [hc]
  · intro n h1 _
    rw [show n = name.length + (1 + (n - name.length - 1)) by omega, List.drop_append, List.drop_of_length_le (by omega), List.nil_append,
      show name.length + (1 + (n - name.length - 1)) - name.length = (n - name.length - 1) + 1 by omega, List.drop_succ_cons]
    split
    · rename_i c' t hd
      exact absurd (List.mem_of_mem_drop (by rw [hd]; simp : 0x20 ∈ (c :: rest).drop (n - name.length - 1))) hr
    · rfl

theorem nameFrom_late (dig : Nat → Bool) {name : Str} {c : Nat} {t : Str} (h1 : 0x20 ∉ name) (h2 : ¬ [0x5D, 0x2D] <:+: name) (h3 : 0x20 ∉ c :: t) (k : Nat) :
    nameFrom dig ((name ++ 0x20 :: c :: t).drop k) = none := by
  by_cases hk : k < name.length
  · rw [List.drop_append_of_le_length (Nat.le_of_lt hk)]
    cases hd : name.drop k with
    | nil => have := congrArg List.length hd; rw [List.length_drop] at this; simp at this; omega
    | cons x y =>
      have hx : x ≠ 0x20 := by
        rintro rfl
        exact h1 (List.mem_of_mem_drop (by rw [hd]; simp : 0x20 ∈ name.drop k))
      unfold nameFrom
      split
      · rename_i r hr
        exfalso
        rw [List.cons_append, List.cons.injEq] at hr
        obtain ⟨rfl, hr⟩ := hr
        cases y with
        | nil => simp at hr
        | cons z w =>
          rw [List.cons_append, List.cons.injEq] at hr
          obtain ⟨rfl, _⟩ := hr
          refine h2 ⟨name.take k, w, ?_⟩
          have := List.take_append_drop k name
          rw [hd] at this
          simpa using this
      · rename_i r hr
        rw [List.cons_append, List.cons.injEq] at hr
        exact absurd hr.1 hx
      · rfl
  · have hd : (name ++ 0x20 :: c :: t).drop k = (0x20 :: c :: t).drop (k - name.length) := by
      rw [List.drop_append, List.drop_of_length_le (by omega), List.nil_append]
    rw [hd]
    cases hj : k - name.length with
    | zero => exact nameBefore_none dig h3
    | succ j =>
      rw [List.drop_succ_cons]
      have hn : 0x20 ∉ (c :: t).drop j := fun hm => h3 (List.mem_of_mem_drop hm)
      unfold nameFrom
      split
      · rename_i r hr
        rw [hr] at hn
        exact nameBefore_none dig (fun hm => hn (by simp [hm]))
      · rename_i r hr
        rw [hr] at hn
        exact absurd (by simp) hn
      · rfl

theorem one_quote {s : Str} (h : s.count 0x22 ≤ 1) : parseQuoted s = none := by
  unfold parseQuoted
  have hw := List.takeWhile_append_dropWhile (p := fun c : Nat => c != 0x22) (l := s)
  split
  · rfl
  · rename_i c r hr
    have hc : c = 0x22 := by
      have := List.head?_dropWhile_not (fun c : Nat => c != 0x22) s
      rw [hr] at this
      simpa using this
    subst hc
    rw [hr] at hw
    rw [← hw, List.count_append, List.count_cons_self] at h
    have hno : 0x22 ∉ r := by
      rw [← List.count_pos_iff]
      omega
    have hall : ∀ x ∈ r.reverse, (x != 0x22) = true := by
      intro x hx
      simp only [bne_iff_ne, ne_eq]
      rintro rfl
      exact hno (List.mem_reverse.mp hx)
    have := dropWhile_no (b := []) hall
    rw [List.append_nil] at this
    rw [this]
    rfl

/-- C98.  Without quotes, or with only one, the last word in front of the counter is found, after a space or after `]-`. -/
theorem parse_plain (dig : Nat → Bool) (pre sep name counter : Str) (hq : (pre ++ sep ++ name ++ [0x20] ++ counter).count 0x22 ≤ 1) (hsep : sep = [0x20] ∨ sep = [0x5D, 0x2D])
    (h1 : 0x20 ∉ name) (h2 : ¬ [0x5D, 0x2D] <:+: name) (h3 : 0x20 ∉ counter) (h4 : ∃ c t, counter = c :: t ∧ (dig c = true ∨ c ∈ str "/()")) :
    parseName dig (pre ++ sep ++ name ++ [0x20] ++ counter) = name := by
  obtain ⟨c, t, rfl, hc⟩ := h4
  have hc : counterChar dig c = true := by
    unfold counterChar
    rcases hc with hc | hc
    · rw [hc]; rfl
    · have : c = 0x2F ∨ c = 0x28 ∨ c = 0x29 := by simpa [str] using hc
      rcases this with rfl | rfl | rfl <;> simp
  have hpq : parseQuoted (pre ++ sep ++ name ++ [0x20] ++ c :: t) = none := one_quote hq
  unfold parseName
  rw [hpq]
  simp only
  have hplain : parsePlain dig (pre ++ sep ++ name ++ [0x20] ++ c :: t) = some name := by
    unfold parsePlain
    have hform : pre ++ sep ++ name ++ [0x20] ++ c :: t = pre ++ (sep ++ (name ++ 0x20 :: c :: t)) := by simp
    rw [hform]
    refine findSome_last (m := pre.length) ?_ _ (by simp) ?_
    · rw [List.drop_left]
      rcases hsep with rfl | rfl
      · exact nameBefore_name dig h3 hc
      · exact nameBefore_name dig h3 hc
    · intro n hn _
      rw [List.drop_append, List.drop_of_length_le (Nat.le_of_lt hn), List.nil_append]
      obtain ⟨k, hk⟩ : ∃ k, n - pre.length = k + 1 := ⟨n - pre.length - 1, by omega⟩
      rw [hk]
      rcases hsep with rfl | rfl
      · rw [List.singleton_append, List.drop_succ_cons]
        exact nameFrom_late dig h1 h2 h3 k
      · rw [show ([0x5D, 0x2D] ++ (name ++ 0x20 :: c :: t) : Str) = 0x5D :: 0x2D :: (name ++ 0x20 :: c :: t) from rfl, List.drop_succ_cons]
        cases k with
        | zero => rfl
        | succ k => rw [List.drop_succ_cons]; exact nameFrom_late dig h1 h2 h3 k
  rw [hplain]

/-- C98, the violation: the usual subject without quotes, with `yEnc` in front of the counter, gives `yEnc` as the name. -/
theorem parse_yenc : parseName (fun c => 0x30 ≤ c && c ≤ 0x39) (str "release name.part01.rar yEnc (1/20)") = str "yEnc" := by decide +kernel

example : parseName (fun c => 0x30 ≤ c && c ≤ 0x39) (str "[1/9] - \"a b.rar\" yEnc (1/20)") = str "a b.rar" :=
  parse_quoted _ (str "[1/9] - ") (str "a b.rar") (str " yEnc (1/20)") (by decide) (by decide) (by decide)

example : parseName (fun c => 0x30 ≤ c && c ≤ 0x39) (str "[#a.b.c]-[name]-file.r00 (1/20)") = str "file.r00" :=
  parse_plain _ (str "[#a.b.c]-[name") [0x5D, 0x2D] (str "file.r00") (str "(1/20)") (by decide) (Or.inr rfl) (by decide)
    (by rw [← isIn_iff]; decide) (by decide) ⟨0x28, str "1/20)", rfl, Or.inr (by decide)⟩

/-! ### The versions of a file -/

theorem addNzb_inv (seen : List NzbFile) (f : NzbFile) (d : List (Str × NzbFile))
    (h : (∀ e ∈ d, e.2 ∈ seen ∧ e.2.name = e.1 ∧ ∀ g ∈ seen, g.name = e.1 → g.bytes ≤ e.2.bytes) ∧ (∀ g ∈ seen, ∃ e ∈ d, e.1 = g.name) ∧ (d.map (·.1)).Nodup) :
    (∀ e ∈ addNzbFile d f, e.2 ∈ seen ++ [f] ∧ e.2.name = e.1 ∧ ∀ g ∈ seen ++ [f], g.name = e.1 → g.bytes ≤ e.2.bytes) ∧
    (∀ g ∈ seen ++ [f], ∃ e ∈ addNzbFile d f, e.1 = g.name) ∧ ((addNzbFile d f).map (·.1)).Nodup := by
  obtain ⟨h1, h2, h3⟩ := h
  unfold addNzbFile
  split
  · rename_i hany
    have hkeys : (d.map fun e => if e.1 == f.name ∧ f.bytes > e.2.bytes then (e.1, f) else e).map (·.1) = d.map (·.1) := by
      rw [List.map_map]
      apply List.map_congr_left
      intro e _
      simp only [Function.comp_apply]
      split <;> rfl
    refine ⟨?_, ?_, by rw [hkeys]; exact h3⟩
    · intro e he
      obtain ⟨e0, he0, rfl⟩ := List.mem_map.mp he
      obtain ⟨k1, k2, k3⟩ := h1 e0 he0
      simp only [beq_iff_eq, gt_iff_lt]
      split
      · rename_i hc
        refine ⟨by simp, hc.1.symm, ?_⟩
        intro g hg hn
        rcases List.mem_append.mp hg with hg | hg
        · have := k3 g hg hn
          simp only; omega
        · simp only [List.mem_singleton] at hg; subst hg; exact Nat.le_refl _
      · rename_i hc
        refine ⟨by simp [k1], k2, ?_⟩
        intro g hg hn
        rcases List.mem_append.mp hg with hg | hg
        · exact k3 g hg hn
        · simp only [List.mem_singleton] at hg; subst hg
          have : ¬ e0.2.bytes < g.bytes := fun hlt => hc ⟨hn.symm, hlt⟩
          omega
    · intro g hg
      have hex : ∃ e ∈ d, e.1 = g.name := by
        rcases List.mem_append.mp hg with hg | hg
        · exact h2 g hg
        · simp only [List.mem_singleton] at hg; subst hg
          simpa using hany
      obtain ⟨e, he, hn⟩ := hex
      refine ⟨_, List.mem_map.mpr ⟨e, he, rfl⟩, ?_⟩
      split <;> exact hn
  · rename_i hany
    have hno : ∀ e ∈ d, e.1 ≠ f.name := by
      intro e he hn
      exact hany (List.any_eq_true.mpr ⟨e, he, by simpa using hn⟩)
    refine ⟨?_, ?_, ?_⟩
    · intro e he
      rcases List.mem_append.mp he with hin | he
      · obtain ⟨k1, k2, k3⟩ := h1 e hin
        refine ⟨by simp [k1], k2, ?_⟩
        intro g hg hn
        rcases List.mem_append.mp hg with hg | hg
        · exact k3 g hg hn
        · simp only [List.mem_singleton] at hg; subst hg
          exact absurd hn.symm (hno e hin)
      · simp only [List.mem_singleton] at he; subst he
        refine ⟨by simp, rfl, ?_⟩
        intro g hg hn
        rcases List.mem_append.mp hg with hg | hg
        · obtain ⟨e, he, hen⟩ := h2 g hg
          exact absurd (hen.trans hn) (hno e he)
        · simp only [List.mem_singleton] at hg; subst hg; exact Nat.le_refl _
    · intro g hg
      rcases List.mem_append.mp hg with hg | hg
      · obtain ⟨e, he, hn⟩ := h2 g hg
        exact ⟨e, by simp [he], hn⟩
      · simp only [List.mem_singleton] at hg; subst hg
        exact ⟨_, List.mem_append.mpr (Or.inr (List.mem_singleton.mpr rfl)), rfl⟩
    · rw [List.map_append, List.nodup_append]
      refine ⟨h3, by simp, ?_⟩
      intro a ha b hb
      simp only [List.map_cons, List.map_nil, List.mem_singleton] at hb
      subst hb
      obtain ⟨e, he, rfl⟩ := List.mem_map.mp ha
      exact hno e he

theorem foldl_inv {α β : Type} {step : β → α → β} {P : List α → β → Prop} (hs : ∀ seen b a, P seen b → P (seen ++ [a]) (step b a)) :
    ∀ (l : List α) (seen : List α) (b : β), P seen b → P (seen ++ l) (l.foldl step b)
  | [], seen, b, h => by simpa using h
  | a :: l, seen, b, h => by
    have := foldl_inv hs l (seen ++ [a]) (step b a) (hs seen b a h)
    simpa using this

/-- C98.  Each name that was posted is there once, with a version of that name that no other one is larger than. -/
theorem nzb_versions (l : List NzbFile) :
    (∀ e ∈ nzbFiles l, e.2 ∈ l ∧ e.2.name = e.1 ∧ ∀ g ∈ l, g.name = e.1 → (g.parts.map (·.2)).sum ≤ (e.2.parts.map (·.2)).sum) ∧
    (∀ g ∈ l, ∃ e ∈ nzbFiles l, e.1 = g.name) ∧ ((nzbFiles l).map (·.1)).Nodup := by
  have := foldl_inv (step := addNzbFile) (P := fun seen d => (∀ e ∈ d, e.2 ∈ seen ∧ e.2.name = e.1 ∧ ∀ g ∈ seen, g.name = e.1 → g.bytes ≤ e.2.bytes) ∧
    (∀ g ∈ seen, ∃ e ∈ d, e.1 = g.name) ∧ (d.map (·.1)).Nodup) (fun seen b a h => addNzb_inv seen a b h) l [] [] ⟨by simp, by simp, by simp⟩
  rw [List.nil_append] at this
  exact this

/-! ### When there is no SRR -/

theorem mem_seq_cls {p : Nat → Bool} {y : Rx} {b r : Str} {z : Zip} :
    z ∈ (Rx.seq (.cls p) y).ends (b, r) ↔ ∃ c t, r = c :: t ∧ p c = true ∧ z ∈ y.ends (c :: b, t) := by
  rw [mem_seq]
  simp only [mem_cls]
  constructor
  · rintro ⟨_, ⟨c, t, h1, h2, rfl⟩, h3⟩
    exact ⟨c, t, h1, h2, h3⟩
  · rintro ⟨c, t, h1, h2, h3⟩
    exact ⟨_, ⟨c, t, h1, h2, rfl⟩, h3⟩

theorem mem_seq_many {p : Nat → Bool} {y : Rx} {b r : Str} {z : Zip} :
    z ∈ (Rx.seq (.many p) y).ends (b, r) ↔ ∃ u v, r = u ++ v ∧ (∀ c ∈ u, p c = true) ∧ z ∈ y.ends (u.reverse ++ b, v) := by
  rw [mem_seq]
  simp only [mem_many]
  constructor
  · rintro ⟨_, ⟨c, t, h1, h2, rfl⟩, h3⟩
    exact ⟨c, t, h1, h2, h3⟩
  · rintro ⟨c, t, h1, h2, h3⟩
    exact ⟨_, ⟨c, t, h1, h2, rfl⟩, h3⟩

theorem ciEq_snoc : ∀ (r w : Str) (c x : Nat), rxCi x c = true → CiEq r w → CiEq (r ++ [c]) (w ++ [x])
  | [], [], _, _, hc, _ => ⟨hc, trivial⟩
  | _ :: r, _ :: w, c, x, hc, h => ⟨h.1, ciEq_snoc r w c x hc h.2⟩
  | [], _ :: _, _, _, _, h => h.elim
  | _ :: _, [], _, _, _, h => h.elim

theorem ciEq_unsnoc : ∀ (r w : Str) (x : Nat), CiEq r (w ++ [x]) → ∃ r' c, r = r' ++ [c] ∧ CiEq r' w ∧ rxCi x c = true
  | [], w, x, h => by cases w <;> exact h.elim
  | [c], [], x, h => ⟨[], c, rfl, trivial, h.1⟩
  | _ :: _ :: _, [], x, h => h.2.elim
  | a :: r, y :: w, x, h => by
    obtain ⟨r', c, h1, h2, h3⟩ := ciEq_unsnoc r w x h.2
    exact ⟨a :: r', c, by rw [h1]; rfl, ⟨h.1, h2⟩, h3⟩

theorem repackRx_iff (dig : Nat → Bool) (who name : Str) : (repackRx dig who).test name = true ↔ RepackName dig who name := by
  unfold repackRx
  rw [test_iff]
  simp only [mem_rxLit, mem_seq_cls, mem_seq_many, mem_cls]
  constructor
  · rintro ⟨z, a, _, rfl, ha, x, _, rfl, hx, d, _, rfl, hd, c, _, rfl, hc, p, _, rfl, hp, x', _, rfl, hx', d', _, rfl, hd', c', _, rfl, hc', r, _, rfl, hr,
      r3, rest, rfl, hr3, rfl⟩
    refine ⟨a, x :: d, c, p, x' :: d', c', r ++ [r3], rest, by simp, ha, hp, ciEq_snoc _ _ _ _ hr3 hr, by simp, ?_, by simp, ?_, ?_, ?_⟩
    · simpa using ⟨hx, hd⟩
    · simpa using ⟨hx', hd'⟩
    · simpa [rxDot] using hc
    · simpa [rxDot] using hc'
  · rintro ⟨a, d, c, p, d', c', r, rest, rfl, ha, hp, hr, hd0, hd, hd0', hd', hc, hc'⟩
    cases d with
    | nil => exact absurd rfl hd0
    | cons x d =>
      cases d' with
      | nil => exact absurd rfl hd0'
      | cons x' d' =>
        obtain ⟨r, r3, rfl, hr, hr3⟩ := ciEq_unsnoc r (str "ra") 0x72 hr
        exact ⟨_, a, _, by simp only [List.append_assoc]; rfl, ha, x, _, rfl, hd x (by simp), d, _, rfl, fun y hy => hd y (by simp [hy]), c, _, rfl,
          by simpa [rxDot] using hc, p, _, rfl, hp, x', _, rfl, hd' x' (by simp), d', _, rfl, fun y hy => hd' y (by simp [hy]), c', _, rfl,
          by simpa [rxDot] using hc', r, _, rfl, hr, r3, rest, rfl, hr3, rfl⟩

theorem isRepack_iff (dig : Nat → Bool) (name : Str) : isRepack dig name = true ↔ Repacked dig name := by
  unfold isRepack Repacked
  simp only [Bool.or_eq_true, Bool.and_eq_true, beq_iff_eq, repackRx_iff, isIn_iff, List.all_eq_true]
  constructor
  · rintro (((h | h) | h) | ⟨⟨h1, h2⟩, h3⟩)
    · exact Or.inl h
    · exact Or.inr (Or.inl h)
    · exact Or.inr (Or.inr (Or.inl h))
    · refine Or.inr (Or.inr (Or.inr ⟨name.take 20, name.drop 20, (List.take_append_drop _ _).symm, by simp; omega, by simp; omega, ?_, h3⟩))
      rw [h2] at h1
      exact h1
  · rintro (h | h | h | ⟨x, e, rfl, h1, h2, h3, h4⟩)
    · exact Or.inl (Or.inl (Or.inl h))
    · exact Or.inl (Or.inl (Or.inr h))
    · exact Or.inl (Or.inr h)
    · refine Or.inr ⟨⟨?_, by simp; omega⟩, ?_⟩
      · rw [List.length_append, h1, h2, List.drop_left' h1]
        exact h3
      · rw [List.take_left' h1]
        exact h4

theorem nzbCheck_ok (dig : Nat → Bool) (d : List (Str × NzbFile)) : nzbCheck dig d = .ok () ↔
    ∀ e ∈ d, ¬ (isRar dig e.2.name = true ∧ ∀ p ∈ e.2.parts, p.1 ≠ 1) ∧ ¬ Repacked dig e.2.name := by
  induction d with
  | nil => simp [nzbCheck]
  | cons e t ih =>
    obtain ⟨k, f⟩ := e
    have hb : (isRar dig f.name && !(f.parts.any fun p => p.1 == 1)) = true ↔ (isRar dig f.name = true ∧ ∀ p ∈ f.parts, p.1 ≠ 1) := by simp
    have hr := isRepack_iff dig f.name
    unfold nzbCheck
    simp only [List.mem_cons, forall_eq_or_imp]
    by_cases h1 : (isRar dig f.name && !(f.parts.any fun p => p.1 == 1)) = true
    · rw [if_pos h1]
      constructor
      · intro h; cases h
      · intro h; exact absurd (hb.mp h1) h.1.1
    · rw [if_neg h1]
      by_cases h2 : isRepack dig f.name = true
      · rw [if_pos h2]
        constructor
        · intro h; cases h
        · intro h; exact absurd (hr.mp h2) h.1.2
      · rw [if_neg h2, ih]
        constructor
        · intro h; exact ⟨⟨fun x => h1 (hb.mpr x), fun x => h2 (hr.mpr x)⟩, h⟩
        · intro h; exact h.2

/-- C98.  An SRR is tried unless a RAR file lacks its first part (in the version that is used) or a name is that of a repack. -/
theorem nzb_tried (dig : Nat → Bool) (l : List NzbFile) : (∃ r, nzbPlan dig l = .ok r) ↔
    (∀ e ∈ nzbFiles l, ¬ (isRar dig e.2.name = true ∧ ∀ p ∈ e.2.parts, p.1 ≠ 1)) ∧ ∀ f ∈ l, ¬ Repacked dig f.name := by
  have hp : (∃ r, nzbPlan dig l = .ok r) ↔ nzbCheck dig (nzbFiles l) = .ok () := by
    unfold nzbPlan
    cases h : nzbCheck dig (nzbFiles l) with
    | error e => constructor
                 · rintro ⟨r, hr⟩; cases hr
                 · intro hr; cases hr
    | ok u => exact ⟨fun _ => rfl, fun _ => ⟨_, rfl⟩⟩
  rw [hp, nzbCheck_ok]
  obtain ⟨h1, h2, _⟩ := nzb_versions l
  constructor
  · intro h
    refine ⟨fun e he => (h e he).1, fun f hf => ?_⟩
    obtain ⟨e, he, hn⟩ := h2 f hf
    rw [← hn, ← (h1 e he).2.1]
    exact (h e he).2
  · intro h e he
    exact ⟨h.1 e he, h.2 e.2 (h1 e he).1⟩

/-! ### The SFV files -/

theorem addSfv_names (l : List NzbFile) (f : NzbFile) :
    (addSfv l f).map (·.name) = if f.name ∈ l.map (·.name) then l.map (·.name) else l.map (·.name) ++ [f.name] := by
  unfold addSfv
  have hb : (l.any fun g => g.name == f.name) = true ↔ f.name ∈ l.map (·.name) := by
    simp only [List.any_eq_true, beq_iff_eq, List.mem_map]
  by_cases h : f.name ∈ l.map (·.name)
  · rw [if_pos (hb.mpr h), if_pos h, List.map_map]
    apply List.map_congr_left
    intro g _
    simp only [Function.comp_apply, beq_iff_eq]
    split
    · rename_i hc; exact hc.1.symm
    · rfl
  · rw [if_neg (fun x => h (hb.mp x)), if_neg h]
    simp

theorem addSfv_inv (seen : List NzbFile) (l : List NzbFile) (f : NzbFile) (hf : ∃ e, f.sfv = some e) (hs : ∀ g ∈ seen, ∃ e, g.sfv = some e)
    (h : (∀ g ∈ l, g ∈ seen ∧ ∀ g' ∈ seen, g'.name = g.name → SaysMore g g') ∧ (∀ g ∈ seen, g.name ∈ l.map (·.name)) ∧ (l.map (·.name)).Nodup) :
    (∀ g ∈ addSfv l f, g ∈ seen ++ [f] ∧ ∀ g' ∈ seen ++ [f], g'.name = g.name → SaysMore g g') ∧
    (∀ g ∈ seen ++ [f], g.name ∈ (addSfv l f).map (·.name)) ∧ ((addSfv l f).map (·.name)).Nodup := by
  obtain ⟨h1, h2, h3⟩ := h
  obtain ⟨⟨fe, fc⟩, hfe⟩ := hf
  have hself : SaysMore f f := ⟨fe, fc, fe, fc, hfe, hfe, Or.inr ⟨rfl, Nat.le_refl _⟩⟩
  refine ⟨?_, ?_, ?_⟩
  · intro g hg
    unfold addSfv at hg
    split at hg
    · obtain ⟨g0, hg0, hgg⟩ := List.mem_map.mp hg
      obtain ⟨k1, k2⟩ := h1 g0 hg0
      obtain ⟨⟨e0, c0⟩, he0⟩ := hs g0 k1
      simp only [beq_iff_eq] at hgg
      split at hgg
      · rename_i hc
        subst hgg
        have hb := hc.2
        simp only [sfvBetter, hfe, he0, Bool.or_eq_true, Bool.and_eq_true, decide_eq_true_eq, beq_iff_eq] at hb
        refine ⟨by simp, ?_⟩
        intro g' hg' hn
        rcases List.mem_append.mp hg' with hg' | hg'
        · obtain ⟨e1, c1, e2, c2, q1, q2, q3⟩ := k2 g' hg' (hn.trans hc.1.symm)
          rw [he0] at q1
          cases q1
          exact ⟨fe, fc, e2, c2, hfe, q2, by omega⟩
        · simp only [List.mem_singleton] at hg'; subst hg'; exact hself
      · rename_i hc
        subst hgg
        refine ⟨by simp [k1], ?_⟩
        intro g' hg' hn
        rcases List.mem_append.mp hg' with hg' | hg'
        · exact k2 g' hg' hn
        · simp only [List.mem_singleton] at hg'; subst hg'
          have hb : ¬ sfvBetter g' g0 = true := fun x => hc ⟨hn.symm, x⟩
          simp only [sfvBetter, hfe, he0, Bool.or_eq_true, Bool.and_eq_true, decide_eq_true_eq, beq_iff_eq] at hb
          exact ⟨e0, c0, fe, fc, he0, hfe, by omega⟩
    · rename_i hany
      have hno : ∀ e ∈ l, e.name ≠ f.name := by
        intro e he hn
        exact hany (List.any_eq_true.mpr ⟨e, he, by simpa using hn⟩)
      rcases List.mem_append.mp hg with hin | hg
      · obtain ⟨k1, k2⟩ := h1 g hin
        refine ⟨by simp [k1], ?_⟩
        intro g' hg' hn
        rcases List.mem_append.mp hg' with hg' | hg'
        · exact k2 g' hg' hn
        · simp only [List.mem_singleton] at hg'; subst hg'
          exact absurd hn.symm (hno g hin)
      · simp only [List.mem_singleton] at hg; subst hg
        refine ⟨by simp, ?_⟩
        intro g' hg' hn
        rcases List.mem_append.mp hg' with hg' | hg'
        · obtain ⟨e, he, hen⟩ := List.mem_map.mp (h2 g' hg')
          exact absurd (hen.trans hn) (hno e he)
        · simp only [List.mem_singleton] at hg'; subst hg'; exact hself
  · intro g hg
    rw [addSfv_names]
    rcases List.mem_append.mp hg with hg | hg
    · have := h2 g hg
      split
      · exact this
      · exact List.mem_append.mpr (Or.inl this)
    · simp only [List.mem_singleton] at hg; subst hg
      split
      · assumption
      · simp
  · rw [addSfv_names]
    split
    · exact h3
    · rename_i hn
      rw [List.nodup_append]
      refine ⟨h3, by simp, ?_⟩
      intro a ha b hb
      simp only [List.mem_singleton] at hb
      subst hb
      exact fun hab => hn (hab ▸ ha)

theorem uniqueSfvs_inv (l : List NzbFile) (hl : ∀ f ∈ l, ∃ e, f.sfv = some e) :
    (∀ g ∈ uniqueSfvs l, g ∈ l ∧ ∀ g' ∈ l, g'.name = g.name → SaysMore g g') ∧ (∀ g ∈ l, g.name ∈ (uniqueSfvs l).map (·.name)) ∧
    ((uniqueSfvs l).map (·.name)).Nodup := by
  have := foldl_inv (step := addSfv) (P := fun seen d => (∀ f ∈ seen, f ∈ l → True) ∧ ((∀ f ∈ seen, ∃ e, f.sfv = some e) →
    (∀ g ∈ d, g ∈ seen ∧ ∀ g' ∈ seen, g'.name = g.name → SaysMore g g') ∧ (∀ g ∈ seen, g.name ∈ d.map (·.name)) ∧ (d.map (·.name)).Nodup))
    (fun seen b a h => ⟨fun _ _ _ => trivial, fun hs => addSfv_inv seen b a (hs a (by simp)) (fun g hg => hs g (by simp [hg]))
      (h.2 fun g hg => hs g (by simp [hg]))⟩) l [] [] ⟨by simp, by simp⟩
  rw [List.nil_append] at this
  exact this.2 hl

theorem moveLast_perm {α : Type} (p : α → Bool) : ∀ (k i : Nat) (l : List α), (moveLast p k i l).Perm l
  | 0, _, _ => by simp [moveLast]
  | k + 1, i, l => by
    unfold moveLast
    split
    · exact List.Perm.refl _
    · rename_i x hx
      split
      · refine (moveLast_perm p k (i + 1) _).trans ?_
        obtain ⟨hi, rfl⟩ := List.getElem?_eq_some_iff.mp hx
        refine (List.perm_append_singleton _ _).trans ?_
        rw [List.eraseIdx_eq_take_drop_succ]
        refine List.perm_middle.symm.trans (List.Perm.of_eq ?_)
        rw [List.getElem_cons_drop, List.take_append_drop]
      · exact moveLast_perm p k (i + 1) l

theorem nzbSfvs_perm (l : List NzbFile) : (nzbSfvs l).Perm (uniqueSfvs (sfvsFirst l)) := by
  unfold nzbSfvs
  refine (moveLast_perm _ _ _ _).trans ?_
  refine ((sortOn_perm _).map _).trans ?_
  rw [List.map_map]
  exact List.Perm.of_eq (List.map_id' _)

/-- `f.name[-4:]`. -/
theorem nzbExt_iff (f : NzbFile) (w : Str) (hw : w.length = 4) : nzbExt f = w ↔ ∃ b e, f.name = b ++ e ∧ e.length = 4 ∧ lowerStr e = w := by
  unfold nzbExt
  constructor
  · intro h
    have hl : (f.name.drop (f.name.length - 4)).length = 4 := by
      have := congrArg List.length h
      simpa [lowerStr, hw] using this
    exact ⟨f.name.take (f.name.length - 4), f.name.drop (f.name.length - 4), (List.take_append_drop _ _).symm, hl, h⟩
  · rintro ⟨b, e, h1, h2, h3⟩
    rw [h1, List.length_append, h2, Nat.add_sub_cancel, List.drop_left]
    exact h3

theorem mem_sfvsFirst (l : List NzbFile) (f : NzbFile) : f ∈ sfvsFirst l ↔ f ∈ l ∧ SfvExt f ∧ ¬ str "subs" <:+: f.name := by
  unfold sfvsFirst SfvExt
  rw [List.mem_filter, Bool.and_eq_true, beq_iff_eq, nzbExt_iff f _ (by decide), Bool.not_eq_true', ← isIn_iff]
  simp

/-- C98.  There is one SFV file of each name, one that says the most, and no other files: SFV files with `subs` in the name are not among them. -/
theorem nzb_sfvs (l : List NzbFile) (hl : ∀ f ∈ l, SfvExt f → ∃ e, f.sfv = some e) :
    (∀ g ∈ nzbSfvs l, g ∈ l ∧ SfvExt g ∧ ¬ str "subs" <:+: g.name ∧ ∀ g' ∈ l, g'.name = g.name → SaysMore g g') ∧
    (∀ g ∈ l, SfvExt g → ¬ str "subs" <:+: g.name → ∃ g' ∈ nzbSfvs l, g'.name = g.name) ∧ ((nzbSfvs l).map (·.name)).Nodup := by
  obtain ⟨h1, h2, h3⟩ := uniqueSfvs_inv (sfvsFirst l) (fun f hf => hl f ((mem_sfvsFirst l f).mp hf).1 ((mem_sfvsFirst l f).mp hf).2.1)
  have hp := nzbSfvs_perm l
  refine ⟨?_, ?_, ((hp.map _).nodup_iff).mpr h3⟩
  · intro g hg
    obtain ⟨k1, k2⟩ := h1 g (hp.mem_iff.mp hg)
    obtain ⟨q1, q2, q3⟩ := (mem_sfvsFirst l g).mp k1
    refine ⟨q1, q2, q3, fun g' hg' hn => k2 g' ((mem_sfvsFirst l g').mpr ⟨hg', ?_, by rw [hn]; exact q3⟩) hn⟩
    unfold SfvExt at q2 ⊢
    rw [hn]; exact q2
  · intro g hg he hs
    obtain ⟨g', hg', hn⟩ := List.mem_map.mp (h2 g ((mem_sfvsFirst l g).mpr ⟨hg, he, hs⟩))
    exact ⟨g', hp.mem_iff.mpr hg', hn⟩

theorem uniqueSfvs_nodup (l : List NzbFile) : ((uniqueSfvs l).map (·.name)).Nodup := by
  have := foldl_inv (step := addSfv) (P := fun _ d => (d.map (·.name)).Nodup) (fun _ b a h => by
    rw [addSfv_names]
    split
    · exact h
    · rename_i hn
      rw [List.nodup_append]
      refine ⟨h, by simp, ?_⟩
      intro x hx y hy
      simp only [List.mem_singleton] at hy
      subst hy
      exact fun hab => hn (hab ▸ hx)) l [] [] (by simp)
  exact this

theorem moveLast_end {α : Type} (p : α → Bool) (n : List α) : ∀ (k j : Nat) (s : List α), ∃ s', moveLast p k (n.length + j) (n ++ s) = n ++ s' ∧ s'.Perm s
  | 0, _, s => ⟨s, rfl, List.Perm.refl _⟩
  | k + 1, j, s => by
    unfold moveLast
    rw [List.getElem?_append_right (by omega), Nat.add_sub_cancel_left]
    cases h : s[j]? with
    | none => exact ⟨s, rfl, List.Perm.refl _⟩
    | some x =>
      dsimp only
      split
      · rw [List.eraseIdx_append_of_length_le (by omega), Nat.add_sub_cancel_left, List.append_assoc]
        obtain ⟨s', h1, h2⟩ := moveLast_end p n k (j + 1) (s.eraseIdx j ++ [x])
        refine ⟨s', h1, h2.trans ?_⟩
        obtain ⟨hi, rfl⟩ := List.getElem?_eq_some_iff.mp h
        refine (List.perm_append_singleton _ _).trans ?_
        rw [List.eraseIdx_eq_take_drop_succ]
        refine List.perm_middle.symm.trans (List.Perm.of_eq ?_)
        rw [List.getElem_cons_drop, List.take_append_drop]
      · exact moveLast_end p n k (j + 1) s

theorem moveLast_apart {α : Type} (p : α → Bool) : ∀ (k : Nat) (n r s : List α), k = r.length + s.length → Apart p r → 
    ∃ s', moveLast p k n.length (n ++ (r ++ s)) = n ++ (r.filter fun x => !p x) ++ s' ∧ s'.Perm (s ++ r.filter p)
  | k, n, [], s, _, _ => by
    obtain ⟨s', h1, h2⟩ := moveLast_end p n k 0 s
    exact ⟨s', by simpa using h1, by simpa using h2⟩
  | 0, _, _ :: _, _, hk, _ => by simp at hk; omega
  | k + 1, n, x :: r, s, hk, ha => by
    unfold moveLast
    rw [show (n ++ (x :: r ++ s))[n.length]? = some x by simp]
    dsimp only
    by_cases hx : p x = true
    · rw [if_pos hx, List.eraseIdx_append_of_length_le (by omega)]
      simp only [Nat.sub_self, List.cons_append, List.eraseIdx_cons_zero, List.append_assoc]
      cases r with
      | nil =>
        obtain ⟨s', h1, h2⟩ := moveLast_end p n k 1 (s ++ [x])
        refine ⟨s', by simpa [hx] using h1, by simpa [hx] using h2⟩
      | cons y r =>
        have hy : p y = false := by
          cases hy : p y with
          | false => rfl
          | true => exact absurd ⟨hx, hy⟩ ha.1
        have har : Apart p r := by
          cases r with
          | nil => trivial
          | cons z r => exact ha.2.2
        obtain ⟨s', h1, h2⟩ := moveLast_apart p k (n ++ [y]) r (s ++ [x]) (by simp at hk ⊢; omega) har
        refine ⟨s', ?_, ?_⟩
        · simpa [hx, hy] using h1
        · refine h2.trans ?_
          simp [hx, hy]
    · rw [if_neg hx]
      have har : Apart p r := by
        cases r with
        | nil => trivial
        | cons z r => exact ha.2
      obtain ⟨s', h1, h2⟩ := moveLast_apart p k (n ++ [x]) r s (by simp at hk; omega) har
      refine ⟨s', ?_, ?_⟩
      · simpa [hx] using h1
      · refine h2.trans ?_
        simp [hx]

theorem inj_of_nodup {α β : Type} {g : α → β} : ∀ {l : List α}, (l.map g).Nodup → ∀ {a b : α}, a ∈ l → b ∈ l → g a = g b → a = b
  | [], _, _, _, ha, _, _ => by cases ha
  | x :: l, hn, a, b, ha, hb, hg => by
    rw [List.map_cons, List.nodup_cons] at hn
    rcases List.mem_cons.mp ha with h1 | h1
    · rcases List.mem_cons.mp hb with h2 | h2
      · rw [h1, h2]
      · exact absurd (List.mem_map.mpr ⟨b, h2, by rw [← hg, h1]⟩) hn.1
    · rcases List.mem_cons.mp hb with h2 | h2
      · exact absurd (List.mem_map.mpr ⟨a, h1, by rw [hg, h2]⟩) hn.1
      · exact inj_of_nodup hn.2 h1 h2 hg

theorem lastSfv_iff (f : NzbFile) : lastSfv f = true ↔ SaysLast f := by
  unfold lastSfv SaysLast
  simp [isIn_iff]

/-- C98.  Where no two SFV files with such a word in the name follow each other in alphabetical order, the SFV files are in alphabetical order
and those with `extras`, `proof`, `sample` or `subpack` in the name come after the others.  Partial: see `sfv_stays`. -/
theorem sfv_order_partial (l s : List NzbFile) (hp : s.Perm (nzbSfvs l)) (hs : s.Pairwise fun a b => strLe a.name b.name = true) (ha : Apart lastSfv s) :
    ∃ main rest, nzbSfvs l = main ++ rest ∧ main.Sublist s ∧ (∀ f ∈ main, ¬ SaysLast f) ∧ ∀ f ∈ rest, SaysLast f := by
  have hm : s = (sortOn ((uniqueSfvs (sfvsFirst l)).map fun f => (f.name, f))).map (·.2) := by
    have hq : ((sortOn ((uniqueSfvs (sfvsFirst l)).map fun f => (f.name, f))).map (·.2)).Perm (uniqueSfvs (sfvsFirst l)) := by
      refine ((sortOn_perm _).map _).trans ?_
      rw [List.map_map]
      exact List.Perm.of_eq (List.map_id' _)
    refine List.Perm.eq_of_pairwise (le := fun a b => strLe a.name b.name = true) ?_ hs ?_ ((hp.trans (nzbSfvs_perm l)).trans hq.symm)
    · intro a b h1 h2 k1 k2
      have hn := strLe_antisymm k1 k2
      have m1 := (hp.trans (nzbSfvs_perm l)).mem_iff.mp h1
      have m2 := hq.mem_iff.mp h2
      have hnd := uniqueSfvs_nodup (sfvsFirst l)
      exact inj_of_nodup hnd m1 m2 hn
    · rw [List.pairwise_map]
      refine (sortOn_sorted _).imp_of_mem ?_
      intro a b ha hb h
      have : ∀ e ∈ sortOn ((uniqueSfvs (sfvsFirst l)).map fun f => (f.name, f)), e.1 = e.2.name := by
        intro e he
        obtain ⟨f, _, rfl⟩ := List.mem_map.mp ((sortOn_perm _).mem_iff.mp he)
        rfl
      rw [← this a ha, ← this b hb]
      exact h
  obtain ⟨s', h1, h2⟩ := moveLast_apart lastSfv s.length [] s [] (by simp) ha
  refine ⟨s.filter fun x => !lastSfv x, s', ?_, List.filter_sublist, ?_, ?_⟩
  · unfold nzbSfvs
    rw [← hm]
    simpa using h1
  · intro f hf
    have := (List.mem_filter.mp hf).2
    rw [← lastSfv_iff]
    simpa using this
  · intro f hf
    have := h2.mem_iff.mp hf
    rw [← lastSfv_iff]
    simpa using (List.mem_filter.mp (by simpa using this)).2

/-! ### The files that are stored -/

theorem isIn_false_iff (a b : Str) : isIn a b = false ↔ ¬ a <:+: b := by
  rw [← isIn_iff]; simp

theorem nzbEnds_iff {s e : Str} : endsWith s e = true ↔ e <:+ s := by
  unfold endsWith
  exact List.isSuffixOf_iff_suffix

theorem leftOutNzb_iff (f : NzbFile) : leftOutNzb f = true ↔ UnwantedPost f := by
  unfold leftOutNzb UnwantedPost NzbFile.bytes
  simp only [Bool.or_eq_true, Bool.and_eq_true, beq_iff_eq, decide_eq_true_eq, Bool.not_eq_true', isIn_iff, isIn_false_iff, nzbEnds_iff]
  grind

/-- C98.  The files that are stored: the NFO files, images, SRS files and SFV files with `subs` in the name, apart from the unwanted ones. -/
theorem nzb_stored (l : List NzbFile) (f : NzbFile) : f ∈ nzbStored l ↔
    f ∈ l ∧ (StoredExt f ∨ (SfvExt f ∧ str "subs" <:+: f.name)) ∧ ¬ UnwantedPost f := by
  have hk : f ∈ (toStoreFirst l).filter (fun f => !leftOutNzb f) ↔ f ∈ l ∧ (StoredExt f ∨ (SfvExt f ∧ str "subs" <:+: f.name)) ∧ ¬ UnwantedPost f := by
    rw [List.mem_filter, ← leftOutNzb_iff]
    unfold toStoreFirst
    rw [List.mem_filter, Bool.or_eq_true, Bool.and_eq_true, beq_iff_eq, nzbExt_iff f (str ".sfv") (by decide), isIn_iff]
    have hx : ([str ".nfo", str ".jpg", str ".png", str ".bmp", str ".srs"].contains (nzbExt f)) = true ↔ StoredExt f := by
      unfold StoredExt
      simp only [List.contains_eq_mem, decide_eq_true_eq, List.mem_cons, List.not_mem_nil, or_false]
      rw [nzbExt_iff f _ (by decide), nzbExt_iff f _ (by decide), nzbExt_iff f _ (by decide), nzbExt_iff f _ (by decide), nzbExt_iff f _ (by decide)]
      constructor
      · rintro (⟨b, e, h⟩ | ⟨b, e, h⟩ | ⟨b, e, h⟩ | ⟨b, e, h⟩ | ⟨b, e, h⟩) <;> exact ⟨b, e, h.1, h.2.1, by simp [h.2.2]⟩
      · rintro ⟨b, e, h1, h2, h3⟩
        rcases h3 with h | h | h | h | h
        · exact Or.inl ⟨b, e, h1, h2, h⟩
        · exact Or.inr (Or.inl ⟨b, e, h1, h2, h⟩)
        · exact Or.inr (Or.inr (Or.inl ⟨b, e, h1, h2, h⟩))
        · exact Or.inr (Or.inr (Or.inr (Or.inl ⟨b, e, h1, h2, h⟩)))
        · exact Or.inr (Or.inr (Or.inr (Or.inr ⟨b, e, h1, h2, h⟩)))
    rw [hx]
    unfold SfvExt
    simp only [Bool.not_eq_true', ← Bool.not_eq_true]
    exact and_assoc
  rw [← hk]
  unfold nzbStored
  simp only [List.mem_append, List.mem_filter, Bool.not_eq_true']
  cases h : endsWith f.name (str ".nfo") <;> simp [h]

/-- C98.  The NFO files come first, and otherwise the files are in the order of the NZB. -/
theorem nzb_stored_order (l : List NzbFile) : ∃ nfo rest, nzbStored l = nfo ++ rest ∧ nfo.Sublist l ∧ rest.Sublist l ∧
    (∀ f ∈ nfo, str ".nfo" <:+ f.name) ∧ ∀ f ∈ rest, ¬ str ".nfo" <:+ f.name := by
  refine ⟨_, _, rfl, ?_, ?_, ?_, ?_⟩
  · exact (List.filter_sublist.trans List.filter_sublist).trans List.filter_sublist
  · exact (List.filter_sublist.trans List.filter_sublist).trans List.filter_sublist
  · intro f hf
    exact nzbEnds_iff.mp (List.mem_filter.mp hf).2
  · intro f hf
    have := (List.mem_filter.mp hf).2
    rw [← nzbEnds_iff]
    simpa using this

/-! ### Where the code does something else -/

/-- An SFV file of a post. -/
def postedSfv (name : Str) (e c : Nat) : NzbFile := { name := name, parts := [(1, 300)], size := 300, sfv := some (e, c) }

/-- Another file of a post. -/
def posted (name : Str) (parts : List (Nat × Nat)) : NzbFile := { name := name, parts := parts, size := (parts.map (·.2)).sum, sfv := none }

/-- C98, violation.  The loop that puts the SFV files of samples last skips the one behind an SFV file that it moved: here the SFV file of the sample stays
in front of the SFV file of the release. -/
theorem sfv_stays : (nzbSfvs [postedSfv (str "a-proof.sfv") 1 0, postedSfv (str "a-sample.sfv") 1 0, postedSfv (str "b.sfv") 9 0]).map (·.name) =
    [str "a-sample.sfv", str "b.sfv", str "a-proof.sfv"] := by
  decide +kernel

/-- C98, violation.  Of an NFO file that was posted twice, once incomplete, both versions are stored, under the same name, the incomplete one first. -/
theorem stored_twice : nzbStored [posted (str "a.nfo") [(2, 50)], posted (str "a.nfo") [(1, 100), (2, 50)]] =
    [posted (str "a.nfo") [(2, 50)], posted (str "a.nfo") [(1, 100), (2, 50)]] ∧
    (nzbFiles [posted (str "a.nfo") [(2, 50)], posted (str "a.nfo") [(1, 100), (2, 50)]]).map (·.2) = [posted (str "a.nfo") [(1, 100), (2, 50)]] := by
  decide +kernel

/-- C98, violation.  Files are recognised as NFO files and images in any case, but a small image with capitals is kept, an NFO file with capitals is not
put first, and the SFV file of subtitles with a capital is used for the SRR. -/
theorem capitals_differ :
    nzbStored [posted (str "thumb.jpg") [(1, 100)], posted (str "b.bmp") [(1, 100)], posted (str "a.nfo") [(1, 100)]] =
      [posted (str "a.nfo") [(1, 100)], posted (str "b.bmp") [(1, 100)]] ∧
    nzbStored [posted (str "thumb.JPG") [(1, 100)], posted (str "b.bmp") [(1, 100)], posted (str "a.NFO") [(1, 100)]] =
      [posted (str "thumb.JPG") [(1, 100)], posted (str "b.bmp") [(1, 100)], posted (str "a.NFO") [(1, 100)]] ∧
    (nzbSfvs [postedSfv (str "a.subs.sfv") 1 0, postedSfv (str "a.Subs.sfv") 1 0]).map (·.name) = [str "a.Subs.sfv"] := by
  decide +kernel

/-! ### Cases -/

/-- `0` to `9`. -/
def nzbDigit (c : Nat) : Bool := 0x30 ≤ c && c ≤ 0x39

/-- A post with two versions of a volume and of an SFV file, a sample, and images. -/
def examplePost : List NzbFile :=
  [posted (str "a.rar") [(1, 700), (2, 20)], posted (str "a.rar") [(1, 700), (2, 700)], postedSfv (str "a.sfv") 2 0, postedSfv (str "a.sfv") 3 1,
    postedSfv (str "a-sample.sfv") 1 0, postedSfv (str "a.subs.sfv") 1 0, posted (str "a.jpg") [(1, 9000)], posted (str "a-proof.jpg") [(1, 10)],
    posted (str "b.jpg") [(1, 8999)], posted (str "a.nfo") [(1, 10)]]

example : nzbPlan nzbDigit examplePost = .ok
    ([(str "a.rar", posted (str "a.rar") [(1, 700), (2, 700)]), (str "a.sfv", postedSfv (str "a.sfv") 2 0), (str "a-sample.sfv", postedSfv (str "a-sample.sfv") 1 0),
      (str "a.subs.sfv", postedSfv (str "a.subs.sfv") 1 0), (str "a.jpg", posted (str "a.jpg") [(1, 9000)]), (str "a-proof.jpg", posted (str "a-proof.jpg") [(1, 10)]),
      (str "b.jpg", posted (str "b.jpg") [(1, 8999)]), (str "a.nfo", posted (str "a.nfo") [(1, 10)])],
     [postedSfv (str "a.sfv") 3 1, postedSfv (str "a-sample.sfv") 1 0],
     [posted (str "a.nfo") [(1, 10)], postedSfv (str "a.subs.sfv") 1 0, posted (str "a.jpg") [(1, 9000)], posted (str "a-proof.jpg") [(1, 10)]]) := by
  rfl

/-- The hypotheses of `nzb_sfvs` and `sfv_order_partial` are met. -/
example : (∀ f ∈ examplePost, nzbExt f = str ".sfv" → ∃ e, f.sfv = some e) := by
  intro f hf
  simp only [examplePost, List.mem_cons, List.not_mem_nil, or_false] at hf
  rcases hf with rfl | rfl | rfl | rfl | rfl | rfl | rfl | rfl | rfl | rfl <;> first | exact fun h => absurd h (by decide) | exact fun _ => ⟨_, rfl⟩

example : ∃ s, s.Perm (nzbSfvs examplePost) ∧ (s.Pairwise fun a b => strLe a.name b.name = true) ∧ Apart lastSfv s :=
  ⟨[postedSfv (str "a-sample.sfv") 1 0, postedSfv (str "a.sfv") 3 1], by
    rw [show nzbSfvs examplePost = [postedSfv (str "a.sfv") 3 1, postedSfv (str "a-sample.sfv") 1 0] by rfl]
    exact List.Perm.swap _ _ _, by simp only [List.pairwise_cons]; decide, by decide, trivial⟩

/-- No SRR is tried of a RAR file without its first part, nor of repacks. -/
example : nzbPlan nzbDigit [posted (str "a.rar") [(2, 700)]] = .error (.incomplete (str "a.rar")) ∧
    nzbPlan nzbDigit [posted (str "ICH1.part01.rar") [(1, 700)]] = .error (.repack (str "ICH1.part01.rar")) ∧
    nzbPlan nzbDigit [posted (str "abcdefghij0123456789.rar") [(1, 700)]] = .error (.repack (str "abcdefghij0123456789.rar")) ∧
    nzbPlan nzbDigit [posted (str "a.nfo") [(2, 700)]] = .ok ([(str "a.nfo", posted (str "a.nfo") [(2, 700)])], [], [posted (str "a.nfo") [(2, 700)]]) := by
  refine ⟨rfl, rfl, rfl, rfl⟩

end Rescene.Props
