import Verif.Spec.Release
import Verif.Lemmas.Regex
import Verif.Lemmas.Paths
import Verif.Lemmas.Volumes
namespace Rescene
open Spec

/-! ### Walking -/

mutual
theorem tree_induct {P : Tree → Prop} (h : ∀ files dirs, (∀ x ∈ Dirs.toList dirs, P x.2) → P (.mk files dirs)) : ∀ t, P t
  | .mk files dirs => h files dirs (dirs_induct h dirs)
theorem dirs_induct {P : Tree → Prop} (h : ∀ files dirs, (∀ x ∈ Dirs.toList dirs, P x.2) → P (.mk files dirs)) :
    ∀ dirs : Dirs, ∀ x ∈ dirs.toList, P x.2
  | .nil => by simp [Dirs.toList]
  | .cons n t rest => by
    intro x hx
    simp only [Dirs.toList, List.mem_cons] at hx
    rcases hx with rfl | hx
    · exact tree_induct h t
    · exact dirs_induct h rest x hx
end

theorem walks_map (path : Str) : ∀ d : Dirs, d.walks path = d.toList.map fun x => (x.1, x.2.walk (posixJoin2 path x.1))
  | .nil => rfl
  | .cons n t rest => by simp [Dirs.walks, Dirs.toList, walks_map path rest]

theorem insertOn_map {α β : Type} (f : Str × α → β) (x : Str × α) (l : List (Str × α)) :
    insertOn (x.1, f x) (l.map fun y => (y.1, f y)) = (insertOn x l).map fun y => (y.1, f y) := by
  induction l with
  | nil => rfl
  | cons y l ih =>
    simp only [List.map_cons, insertOn]
    split <;> simp [ih]

theorem sortOn_map {α β : Type} (f : Str × α → β) (l : List (Str × α)) :
    sortOn (l.map fun y => (y.1, f y)) = (sortOn l).map fun y => (y.1, f y) := by
  induction l with
  | nil => rfl
  | cons y l ih => simp only [List.map_cons, sortOn, ih, insertOn_map]

theorem insertOn_perm {α : Type} (x : Str × α) (l : List (Str × α)) : (insertOn x l).Perm (x :: l) := by
  induction l with
  | nil => exact List.Perm.refl _
  | cons y l ih =>
    simp only [insertOn]
    split
    · exact List.Perm.refl _
    · exact (List.Perm.cons y ih).trans (List.Perm.swap x y l)

theorem sortOn_perm {α : Type} (l : List (Str × α)) : (sortOn l).Perm l := by
  induction l with
  | nil => exact List.Perm.refl _
  | cons y l ih => exact (insertOn_perm y _).trans (List.Perm.cons y ih)

theorem walk_eq (path : Str) (files : List Str) (dirs : Dirs) : (Tree.mk files dirs).walk path =
    (path, .mk files dirs) :: (sortOn dirs.toList).flatMap fun x => x.2.walk (posixJoin2 path x.1) := by
  have h := sortOn_map (fun x : Str × Tree => x.2.walk (posixJoin2 path x.1)) dirs.toList
  rw [Tree.walk, walks_map]
  rw [h, List.flatMap_map]

/-! ### Paths -/

theorem pathAt_append (root : Str) (a b : List Str) : pathAt root (a ++ b) = pathAt (pathAt root a) b := by
  simp [pathAt]

theorem pathAt_snoc (root : Str) (a : List Str) (n : Str) : pathAt root (a ++ [n]) = pathAt root a ++ 0x2F :: n := by
  simp [pathAt]

theorem nameAt_snoc (root : Str) (a : List Str) (n : Str) : nameAt root (a ++ [n]) = n := by
  simp [nameAt]

theorem pathAt_prefix (root : Str) (a : List Str) : root <+: pathAt root a := by
  induction a generalizing root with
  | nil => exact List.prefix_refl _
  | cons n a ih => exact (List.prefix_append root (0x2F :: n)).trans (ih _)

theorem pathAt_eq (root : Str) (a : List Str) : pathAt root a = root ++ a.flatMap (fun n => 0x2F :: n) := by
  induction a generalizing root with
  | nil => simp [pathAt]
  | cons n a ih =>
    rw [show pathAt root (n :: a) = pathAt (root ++ 0x2F :: n) a from rfl, ih]
    simp

theorem upToSlash {a b u v : Str} (ha : 0x2F ∉ a) (hb : 0x2F ∉ b) (hu : u = [] ∨ ∃ w, u = 0x2F :: w) (hv : v = [] ∨ ∃ w, v = 0x2F :: w)
    (h : a ++ u = b ++ v) : a = b ∧ u = v := by
  induction a generalizing b with
  | nil =>
    cases b with
    | nil => exact ⟨rfl, h⟩
    | cons c b =>
      rcases hu with rfl | ⟨w, rfl⟩
      · simp at h
      · simp only [List.nil_append, List.cons_append, List.cons.injEq] at h
        exact absurd (by rw [h.1]; simp) hb
  | cons c a ih =>
    cases b with
    | nil =>
      rcases hv with rfl | ⟨w, rfl⟩
      · simp at h
      · simp only [List.nil_append, List.cons_append, List.cons.injEq] at h
        exact absurd (by rw [← h.1]; simp) ha
    | cons d b =>
      simp only [List.cons_append, List.cons.injEq] at h
      simp only [List.mem_cons, not_or] at ha hb
      obtain ⟨e1, e2⟩ := ih ha.2 hb.2 h.2
      exact ⟨by rw [h.1, e1], e2⟩

theorem flat_head (a : List Str) : a.flatMap (fun n => 0x2F :: n) = [] ∨ ∃ w, a.flatMap (fun n => 0x2F :: n) = 0x2F :: w := by
  cases a with
  | nil => exact Or.inl rfl
  | cons n a => exact Or.inr ⟨_, by rw [List.flatMap_cons]; rfl⟩

theorem pathAt_inj {root : Str} {a b : List Str} (ha : ∀ n ∈ a, 0x2F ∉ n) (hb : ∀ n ∈ b, 0x2F ∉ n) (h : pathAt root a = pathAt root b) : a = b := by
  rw [pathAt_eq, pathAt_eq] at h
  replace h := List.append_cancel_left h
  clear root
  induction a generalizing b with
  | nil =>
    cases b with
    | nil => rfl
    | cons => simp at h
  | cons n a ih =>
    cases b with
    | nil => simp at h
    | cons m b =>
      simp only [List.flatMap_cons, List.cons_append, List.cons.injEq, true_and] at h
      obtain ⟨e1, e2⟩ := upToSlash (ha n (by simp)) (hb m (by simp)) (flat_head a) (flat_head b) h
      rw [e1, ih (fun x hx => ha x (by simp [hx])) (fun x hx => hb x (by simp [hx])) e2]

theorem folderAt_append (t : Tree) (a b : List Str) : folderAt t (a ++ b) = (folderAt t a).bind fun s => folderAt s b := by
  induction a generalizing t with
  | nil => simp [folderAt]
  | cons n a ih =>
    simp only [List.cons_append, folderAt]
    cases (t.dirs.toList.find? fun d => d.1 == n) with
    | none => rfl
    | some x => exact ih x.2

theorem find_of_mem {l : List (Str × Tree)} (hd : (l.map (·.1)).Nodup) {x : Str × Tree} (hx : x ∈ l) :
    l.find? (fun d => d.1 == x.1) = some x := by
  induction l with
  | nil => simp at hx
  | cons y l ih =>
    rw [List.map_cons, List.nodup_cons] at hd
    rw [List.find?_cons]
    by_cases e : y.1 = x.1
    · rw [beq_iff_eq.2 e]
      rcases List.mem_cons.1 hx with rfl | hx
      · rfl
      · exact absurd (List.mem_map.2 ⟨x, hx, e.symm⟩) hd.1
    · rw [beq_eq_false_iff_ne.2 e]
      rcases List.mem_cons.1 hx with rfl | hx
      · exact absurd rfl e
      · exact ih hd.2 hx

theorem NamesOk.sub {t s : Tree} {ns : List Str} (h : NamesOk t) (hs : folderAt t ns = some s) : NamesOk s := by
  intro ms u hu
  refine h (ns ++ ms) u ?_
  rw [folderAt_append, hs]
  exact hu

theorem folderAt_child {t : Tree} (h : NamesOk t) {x : Str × Tree} (hx : x ∈ t.dirs.toList) : folderAt t [x.1] = some x.2 := by
  simp only [folderAt]
  rw [find_of_mem (h [] t rfl).1 hx]
  rfl

theorem rootOk_snoc {p n : Str} (hn : n ≠ []) (h2 : 0x2F ∉ n) : RootOk (p ++ 0x2F :: n) := by
  refine ⟨by simp, ?_, by simp⟩
  intro h
  rw [List.getLast?_append, List.getLast?_cons] at h
  cases hl : n.getLast? with
  | none => exact hn (List.getLast?_eq_none_iff.1 hl)
  | some y =>
    rw [hl] at h
    have h : y = 0x2F := by simpa using h
    subst h
    exact h2 (List.mem_of_getLast? hl)

theorem join_eq {p n : Str} (hp : RootOk p) (hn : n ≠ []) (h2 : 0x2F ∉ n) : posixJoin2 p n = p ++ 0x2F :: n := by
  unfold posixJoin2
  have h1 : n.head? ≠ some 0x2F := by
    cases n with
    | nil => simp
    | cons c n =>
      simp only [List.head?_cons, ne_eq, Option.some.injEq]
      rintro rfl
      exact h2 (by simp)
  rw [if_neg h1, if_neg (by simp [hp.1, hp.2.1])]

theorem pathAt_ok {t : Tree} (h : NamesOk t) {root : Str} (hr : RootOk root) {ns : List Str} {s : Tree} (hs : folderAt t ns = some s) :
    RootOk (pathAt root ns) := by
  induction ns generalizing t root with
  | nil => exact hr
  | cons n ns ih =>
    simp only [folderAt] at hs
    cases hf : (t.dirs.toList.find? fun d => d.1 == n) with
    | none => rw [hf] at hs; simp at hs
    | some x =>
      rw [hf] at hs
      have hx := List.mem_of_find?_eq_some hf
      have hn := List.find?_some hf
      simp only [beq_iff_eq] at hn
      subst hn
      obtain ⟨h1, h2⟩ := (h [] t rfl).2 x hx
      exact ih (NamesOk.sub h (folderAt_child h hx)) (rootOk_snoc h1 h2) hs

theorem basename_pathAt {root : Str} {a : List Str} (h : ∀ n ∈ a, 0x2F ∉ n) : basename (pathAt root a) = nameAt root a := by
  rcases List.eq_nil_or_concat a with rfl | ⟨b, n, rfl⟩
  · rfl
  · rw [List.concat_eq_append, pathAt_snoc, nameAt_snoc]
    have hn := h n (by simp)
    unfold basename
    rw [splitOn_append]
    rw [splitOn_of_not_mem hn]
    simp

theorem folderAt_names {t : Tree} (h : NamesOk t) {ns : List Str} {s : Tree} (hs : folderAt t ns = some s) : ∀ n ∈ ns, n ≠ [] ∧ 0x2F ∉ n := by
  induction ns generalizing t with
  | nil => simp
  | cons n ns ih =>
    simp only [folderAt] at hs
    cases hf : (t.dirs.toList.find? fun d => d.1 == n) with
    | none => rw [hf] at hs; simp at hs
    | some x =>
      rw [hf] at hs
      have hx := List.mem_of_find?_eq_some hf
      have hn := List.find?_some hf
      simp only [beq_iff_eq] at hn
      subst hn
      intro y hy
      rcases List.mem_cons.1 hy with rfl | hy
      · exact (h [] t rfl).2 x hx
      · exact ih (NamesOk.sub h (folderAt_child h hx)) hs y hy

/-- The folders of a walk. -/
theorem mem_walk : ∀ (t : Tree), NamesOk t → ∀ (root : Str), RootOk root → ∀ p s, (p, s) ∈ t.walk root ↔ ∃ ns, p = pathAt root ns ∧ folderAt t ns = some s := by
  refine tree_induct ?_
  intro files dirs ih h root hr p s
  rw [walk_eq, List.mem_cons, List.mem_flatMap]
  constructor
  · rintro (e | ⟨x, hx, hp⟩)
    · simp only [Prod.mk.injEq] at e
      exact ⟨[], e.1, by rw [e.2]; rfl⟩
    · have hx := (sortOn_perm _).mem_iff.1 hx
      obtain ⟨h1, h2⟩ := (h [] _ rfl).2 x hx
      have hc : folderAt (.mk files dirs) [x.1] = some x.2 := folderAt_child h hx
      rw [join_eq hr h1 h2] at hp
      obtain ⟨ns, rfl, hn⟩ := (ih x hx (NamesOk.sub h hc) _ (rootOk_snoc h1 h2) p s).1 hp
      refine ⟨x.1 :: ns, rfl, ?_⟩
      rw [show x.1 :: ns = [x.1] ++ ns from rfl, folderAt_append, hc]
      exact hn
  · rintro ⟨ns, rfl, hn⟩
    cases ns with
    | nil =>
      left
      simp only [folderAt, Option.some.injEq] at hn
      rw [← hn]
      rfl
    | cons n ns =>
      right
      simp only [folderAt] at hn
      cases hf : ((Tree.mk files dirs).dirs.toList.find? fun d => d.1 == n) with
      | none => rw [hf] at hn; simp at hn
      | some x =>
        rw [hf] at hn
        have hx := List.mem_of_find?_eq_some hf
        have hnn := List.find?_some hf
        simp only [beq_iff_eq] at hnn
        subst hnn
        obtain ⟨h1, h2⟩ := (h [] _ rfl).2 x hx
        refine ⟨x, (sortOn_perm _).mem_iff.2 hx, ?_⟩
        rw [join_eq hr h1 h2]
        exact (ih x hx (NamesOk.sub h (folderAt_child h hx)) _ (rootOk_snoc h1 h2) _ s).2 ⟨ns, rfl, hn⟩

/-! ### The test for folders in a release -/

theorem isIn_iff (x y : Str) : isIn x y = true ↔ x <:+: y := by
  induction y with
  | nil => simp [isIn]
  | cons c y ih =>
    rw [isIn, Bool.or_eq_true, List.isPrefixOf_iff_prefix, ih, List.infix_cons_iff]

theorem takeWhile_last (a b : Str) (hb : 0x2F ∉ b) : ((a ++ 0x2F :: b).reverse.dropWhile (· ≠ 0x2F)) = 0x2F :: a.reverse := by
  rw [List.reverse_append, List.reverse_cons, List.append_assoc]
  have : ∀ l : Str, 0x2F ∉ l → (l ++ ([0x2F] ++ a.reverse)).dropWhile (· ≠ 0x2F) = 0x2F :: a.reverse := by
    intro l hl
    induction l with
    | nil => simp
    | cons c l ih =>
      simp only [List.mem_cons, not_or] at hl
      rw [List.cons_append, List.dropWhile_cons, if_pos (by simp; omega)]
      exact ih hl.2
  exact this _ (by simpa using hb)

theorem last_slash {p : Str} (h : 0x2F ∈ p) : ∃ a b, p = a ++ 0x2F :: b ∧ 0x2F ∉ b := by
  induction p with
  | nil => simp at h
  | cons c p ih =>
    by_cases hp : 0x2F ∈ p
    · obtain ⟨a, b, rfl, hb⟩ := ih hp
      exact ⟨c :: a, b, rfl, hb⟩
    · rcases List.mem_cons.1 h with rfl | h
      · exact ⟨[], p, rfl, hp⟩
      · exact absurd h hp

theorem rslash_eq {p : Str} (h : 0x2F ∈ p) : rslash p = parentLength p := by
  obtain ⟨a, b, rfl, hb⟩ := last_slash h
  unfold rslash parentLength
  rw [takeWhile_last a b hb]
  have : basename (a ++ 0x2F :: b) = b := by
    unfold basename
    rw [splitOn_append, splitOn_of_not_mem hb]
    simp
  rw [this]
  simp
  omega

theorem leftOut_iff {r p : Str} (hr : RootOk r) (hp : RootOk p) : leftOut r p = true ↔ r <:+: p ∧ parentLength r ≠ parentLength p := by
  unfold leftOut
  rw [Bool.and_eq_true, Bool.and_eq_true, isIn_iff, rslash_eq hr.2.2, rslash_eq hp.2.2]
  have : (!r.isEmpty) = true := by
    cases r with
    | nil => exact absurd rfl hr.1
    | cons => rfl
  simp only [this, true_and, bne_iff_ne, ne_eq]
  constructor <;> rintro ⟨h1, h2⟩ <;> exact ⟨h1, fun e => h2 e.symm⟩

theorem parent_le {p : Str} : parentLength p ≤ p.length := by
  unfold parentLength
  have := (List.dropWhile_suffix (l := p.reverse) (· ≠ 0x2F)).length_le
  simpa using this

/-- What is below a folder is left out. -/
theorem leftOut_below {p : Str} (hp : RootOk p) {ns : List Str} (hne : ns ≠ []) (hn : ∀ n ∈ ns, n ≠ [] ∧ 0x2F ∉ n) :
    leftOut p (pathAt p ns) = true := by
  rcases List.eq_nil_or_concat ns with rfl | ⟨b, n, rfl⟩
  · exact absurd rfl hne
  · rw [List.concat_eq_append] at hn ⊢
    obtain ⟨h1, h2⟩ := hn n (by simp)
    have hok : RootOk (pathAt p (b ++ [n])) := by
      rw [pathAt_snoc]
      exact rootOk_snoc h1 h2
    rw [leftOut_iff hp hok]
    refine ⟨(pathAt_prefix p _).isInfix, ?_⟩
    have h3 : parentLength p ≤ p.length := parent_le
    have h4 : parentLength (pathAt p (b ++ [n])) = (pathAt p b).length + 1 := by
      rw [pathAt_snoc]
      unfold parentLength
      rw [takeWhile_last _ _ h2]
      simp
    have h5 := (pathAt_prefix p b).length_le
    omega

/-! ### The loop -/

/-- `last_release` after the loop. -/
def lastAfter (rel : Str → Tree → Bool) : Str → List (Str × Tree) → Str
  | last, [] => last
  | last, (p, t) :: rest =>
    if leftOut last p then lastAfter rel last rest
    else if rel (basename p) t then lastAfter rel p rest
    else lastAfter rel last rest

theorem releaseLoop_append (rel : Str → Tree → Bool) (a b : List (Str × Tree)) (last : Str) :
    releaseLoop rel last (a ++ b) = releaseLoop rel last a ++ releaseLoop rel (lastAfter rel last a) b ∧
    lastAfter rel last (a ++ b) = lastAfter rel (lastAfter rel last a) b := by
  induction a generalizing last with
  | nil => exact ⟨rfl, rfl⟩
  | cons x a ih =>
    obtain ⟨p, t⟩ := x
    simp only [List.cons_append, releaseLoop, lastAfter]
    split
    · exact ih last
    · split
      · exact ⟨by rw [(ih p).1]; rfl, (ih p).2⟩
      · exact ih last

theorem releaseLoop_below (rel : Str → Tree → Bool) {last : Str} {l : List (Str × Tree)} (h : ∀ x ∈ l, leftOut last x.1 = true) :
    releaseLoop rel last l = [] ∧ lastAfter rel last l = last := by
  induction l with
  | nil => exact ⟨rfl, rfl⟩
  | cons x l ih =>
    obtain ⟨p, t⟩ := x
    have hx := h (p, t) (by simp)
    simp only [releaseLoop, lastAfter]
    rw [if_pos hx, if_pos hx]
    exact ih fun y hy => h y (by simp [hy])

/-- `last` is no reason to leave out anything at or below a place. -/
def Harmless (rel : Str → Tree → Bool) (root : Str) (T : Tree) (last : Str) (ns : List Str) : Prop :=
  last = [] ∨ ∃ m s, last = pathAt root m ∧ folderAt T m = some s ∧ rel (nameAt root m) s = true ∧ ∀ tail, ¬ m <+: ns ++ tail

theorem harmless_not {rel : Str → Tree → Bool} {root : Str} (hr : RootOk root) {T : Tree} (hT : NamesOk T) (hl : ¬ LooksInside rel root T) {last : Str}
    {ns : List Str} (h : Harmless rel root T last ns) {s : Tree} (hs : folderAt T ns = some s) : leftOut last (pathAt root ns) = false := by
  rcases h with rfl | ⟨m, s', rfl, h1, h2, h3⟩
  · simp [leftOut]
  · cases hc : leftOut (pathAt root m) (pathAt root ns) with
    | false => rfl
    | true =>
      rw [leftOut_iff (pathAt_ok hT hr h1) (pathAt_ok hT hr hs)] at hc
      refine absurd ⟨m, s', ns, s, h1, h2, hs, ?_, hc⟩ hl
      have := h3 []
      rwa [List.append_nil] at this

/-- The loop over a folder that is not in a release. -/
theorem loop_spec {rel : Str → Tree → Bool} {root : Str} (hr : RootOk root) {T : Tree} (hT : NamesOk T) (hl : ¬ LooksInside rel root T) :
    ∀ t : Tree, ∀ ns, folderAt T ns = some t → ∀ last, Harmless rel root T last ns →
      (∀ p, p ∈ releaseLoop rel last (t.walk (pathAt root ns)) ↔
        ∃ ms, p = pathAt root (ns ++ ms) ∧ (∃ s, folderAt t ms = some s ∧ rel (nameAt root (ns ++ ms)) s = true) ∧
          ∀ k < ms.length, ∀ s, folderAt t (ms.take k) = some s → rel (nameAt root (ns ++ ms.take k)) s = false) ∧
      (releaseLoop rel last (t.walk (pathAt root ns))).Nodup ∧
      (lastAfter rel last (t.walk (pathAt root ns)) = last ∨
        ∃ ms s, lastAfter rel last (t.walk (pathAt root ns)) = pathAt root (ns ++ ms) ∧ folderAt t ms = some s ∧ rel (nameAt root (ns ++ ms)) s = true) := by
  refine tree_induct ?_
  intro files dirs ih ns hns last hlast
  have hok := NamesOk.sub hT hns
  have hpath := pathAt_ok hT hr hns
  have hbase : basename (pathAt root ns) = nameAt root ns := basename_pathAt fun n hn => (folderAt_names hT hns n hn).2
  have h0 := harmless_not hr hT hl hlast hns
  rw [walk_eq]
  simp only [releaseLoop, lastAfter, h0, Bool.false_eq_true, if_false, hbase]
  by_cases hrel : rel (nameAt root ns) (.mk files dirs) = true
  · rw [if_pos hrel, if_pos hrel]
    have hb : ∀ x ∈ (sortOn dirs.toList).flatMap (fun x => x.2.walk (posixJoin2 (pathAt root ns) x.1)), leftOut (pathAt root ns) x.1 = true := by
      intro x hx
      rw [List.mem_flatMap] at hx
      obtain ⟨y, hy, hx⟩ := hx
      have hy := (sortOn_perm _).mem_iff.1 hy
      obtain ⟨h1, h2⟩ := (hok [] _ rfl).2 y hy
      rw [join_eq hpath h1 h2] at hx
      obtain ⟨p, s⟩ := x
      have hc : folderAt (.mk files dirs) [y.1] = some y.2 := folderAt_child hok hy
      obtain ⟨ms, rfl, hm⟩ := (mem_walk y.2 (NamesOk.sub hok hc) _ (rootOk_snoc h1 h2) p s).1 hx
      refine leftOut_below (ns := y.1 :: ms) hpath (by simp) ?_
      refine folderAt_names hok (s := s) ?_
      rw [show y.1 :: ms = [y.1] ++ ms from rfl, folderAt_append, hc]
      exact hm
    obtain ⟨e1, e2⟩ := releaseLoop_below rel hb
    rw [e1, e2]
    refine ⟨?_, by simp, Or.inr ⟨[], _, by simp, rfl, by simpa using hrel⟩⟩
    intro p
    simp only [List.mem_singleton]
    constructor
    · rintro rfl
      exact ⟨[], by simp, ⟨_, rfl, by simpa using hrel⟩, by simp⟩
    · rintro ⟨ms, rfl, _, hk⟩
      cases ms with
      | nil => simp
      | cons n ms =>
        have := hk 0 (by simp) (.mk files dirs) rfl
        simp only [List.take_zero, List.append_nil] at this
        rw [hrel] at this
        simp at this
  · rw [if_neg hrel, if_neg hrel]
    have hrel : rel (nameAt root ns) (.mk files dirs) = false := by simpa using hrel
    -- the folders one after the other
    have key : ∀ l : List (Str × Tree), (l.map (·.1)).Nodup → (∀ x ∈ l, x ∈ dirs.toList) → ∀ last,
        (∀ x ∈ l, Harmless rel root T last (ns ++ [x.1])) →
        (∀ p, p ∈ releaseLoop rel last (l.flatMap fun x => x.2.walk (posixJoin2 (pathAt root ns) x.1)) ↔
          ∃ x ∈ l, ∃ ms, p = pathAt root (ns ++ x.1 :: ms) ∧ (∃ s, folderAt x.2 ms = some s ∧ rel (nameAt root (ns ++ x.1 :: ms)) s = true) ∧
            ∀ k < ms.length, ∀ s, folderAt x.2 (ms.take k) = some s → rel (nameAt root (ns ++ x.1 :: ms.take k)) s = false) ∧
        (releaseLoop rel last (l.flatMap fun x => x.2.walk (posixJoin2 (pathAt root ns) x.1))).Nodup ∧
        (lastAfter rel last (l.flatMap fun x => x.2.walk (posixJoin2 (pathAt root ns) x.1)) = last ∨
          ∃ x ∈ l, ∃ ms s, lastAfter rel last (l.flatMap fun x => x.2.walk (posixJoin2 (pathAt root ns) x.1)) = pathAt root (ns ++ x.1 :: ms) ∧
            folderAt x.2 ms = some s ∧ rel (nameAt root (ns ++ x.1 :: ms)) s = true) := by
      intro l
      induction l with
      | nil =>
        intro _ _ last _
        exact ⟨by intro p; simp [releaseLoop], by simp [releaseLoop], Or.inl rfl⟩
      | cons x l ihl =>
        intro hd hm last hh
        rw [List.map_cons, List.nodup_cons] at hd
        have hx : x ∈ dirs.toList := hm x (by simp)
        obtain ⟨h1, h2⟩ := (hok [] _ rfl).2 x hx
        have hc : folderAt (.mk files dirs) [x.1] = some x.2 := folderAt_child hok hx
        have hat : folderAt T (ns ++ [x.1]) = some x.2 := by rw [folderAt_append, hns]; exact hc
        obtain ⟨a1, a2, a3⟩ := ih x hx (ns ++ [x.1]) hat last (hh x (by simp))
        rw [pathAt_snoc] at a1 a2 a3
        simp only [List.append_assoc, List.singleton_append] at a1 a3
        rw [List.flatMap_cons, join_eq hpath h1 h2]
        obtain ⟨e1, e2⟩ := releaseLoop_append rel (x.2.walk (pathAt root ns ++ 0x2F :: x.1))
          (l.flatMap fun x => x.2.walk (posixJoin2 (pathAt root ns) x.1)) last
        rw [e1, e2]
        have hh' : ∀ y ∈ l, Harmless rel root T (lastAfter rel last (x.2.walk (pathAt root ns ++ 0x2F :: x.1))) (ns ++ [y.1]) := by
          intro y hy
          rcases a3 with a3 | ⟨ms, s, a3, a4, a5⟩
          · rw [a3]; exact hh y (by simp [hy])
          · right
            refine ⟨ns ++ x.1 :: ms, s, a3, ?_, a5, ?_⟩
            · rw [show ns ++ x.1 :: ms = (ns ++ [x.1]) ++ ms by simp, folderAt_append, hat]
              exact a4
            · rintro tail ⟨z, hz⟩
              simp only [List.append_assoc, List.cons_append] at hz
              have := List.append_cancel_left hz
              simp only [List.cons.injEq] at this
              exact hd.1 (List.mem_map.2 ⟨y, hy, this.1.symm⟩)
        obtain ⟨b1, b2, b3⟩ := ihl hd.2 (fun y hy => hm y (by simp [hy])) _ hh'
        refine ⟨?_, ?_, ?_⟩
        · intro p
          rw [List.mem_append, a1, b1]
          constructor
          · rintro (h | ⟨y, hy, h⟩)
            · exact ⟨x, by simp, h⟩
            · exact ⟨y, by simp [hy], h⟩
          · rintro ⟨y, hy, h⟩
            rcases List.mem_cons.1 hy with rfl | hy
            · exact Or.inl h
            · exact Or.inr ⟨y, hy, h⟩
        · rw [List.nodup_append]
          refine ⟨a2, b2, ?_⟩
          intro p hp q hq e
          subst e
          obtain ⟨ms, e1, ⟨s1, f1, _⟩, _⟩ := (a1 p).1 hp
          obtain ⟨y, hy, ms', e2, ⟨s2, f2, _⟩, _⟩ := (b1 p).1 hq
          rw [e1] at e2
          have hy' : y ∈ dirs.toList := hm y (by simp [hy])
          have n1 := folderAt_names hT (ns := ns ++ x.1 :: ms) (s := s1) (by
            rw [show ns ++ x.1 :: ms = (ns ++ [x.1]) ++ ms by simp, folderAt_append, hat]
            exact f1)
          have n2 := folderAt_names hT (ns := ns ++ y.1 :: ms') (s := s2) (by
            rw [show ns ++ y.1 :: ms' = ns ++ ([y.1] ++ ms') by simp, folderAt_append, hns]
            show folderAt _ ([y.1] ++ ms') = _
            rw [folderAt_append, folderAt_child hok hy']
            exact f2)
          have := List.append_cancel_left (pathAt_inj (fun n hn => (n1 n hn).2) (fun n hn => (n2 n hn).2) e2)
          simp only [List.cons.injEq] at this
          exact hd.1 (List.mem_map.2 ⟨y, hy, this.1.symm⟩)
        · rcases b3 with b3 | ⟨y, hy, ms, s, b3, b4, b5⟩
          · rw [b3]
            rcases a3 with a3 | ⟨ms, s, a3, a4, a5⟩
            · exact Or.inl a3
            · exact Or.inr ⟨x, by simp, ms, s, a3, a4, a5⟩
          · exact Or.inr ⟨y, by simp [hy], ms, s, b3, b4, b5⟩
    have hnd : ((sortOn dirs.toList).map (·.1)).Nodup := by
      have := ((sortOn_perm dirs.toList).map (·.1)).nodup_iff
      exact this.2 (hok [] _ rfl).1
    obtain ⟨k1, k2, k3⟩ := key (sortOn dirs.toList) hnd (fun x hx => (sortOn_perm _).mem_iff.1 hx) last (by
      intro x _
      rcases hlast with h | ⟨m, s, h1, h2, h3, h4⟩
      · exact Or.inl h
      · right
        refine ⟨m, s, h1, h2, h3, ?_⟩
        intro tail
        have := h4 ([x.1] ++ tail)
        rwa [← List.append_assoc] at this)
    have child : ∀ x ∈ dirs.toList, ∀ ms, folderAt (.mk files dirs) (x.1 :: ms) = folderAt x.2 ms := by
      intro x hx ms
      rw [show x.1 :: ms = [x.1] ++ ms from rfl, folderAt_append, folderAt_child hok hx]
      rfl
    refine ⟨?_, k2, ?_⟩
    · intro p
      rw [k1]
      constructor
      · rintro ⟨x, hx, ms, rfl, ⟨s, h1, h2⟩, h3⟩
        have hx := (sortOn_perm _).mem_iff.1 hx
        refine ⟨x.1 :: ms, rfl, ⟨s, by rw [child x hx]; exact h1, h2⟩, ?_⟩
        intro k hk s' hs'
        cases k with
        | zero =>
          simp only [List.take_zero, folderAt, Option.some.injEq] at hs'
          subst hs'
          simpa using hrel
        | succ k =>
          rw [List.take_succ_cons, child x hx] at hs'
          rw [List.take_succ_cons]
          exact h3 k (by simpa using hk) s' hs'
      · rintro ⟨ms, rfl, ⟨s, h1, h2⟩, h3⟩
        cases ms with
        | nil =>
          simp only [folderAt, Option.some.injEq] at h1
          subst h1
          rw [List.append_nil, hrel] at h2
          simp at h2
        | cons n ms =>
          have h1' := h1
          simp only [folderAt] at h1'
          cases hf : ((Tree.mk files dirs).dirs.toList.find? fun d => d.1 == n) with
          | none => rw [hf] at h1'; simp at h1'
          | some x =>
            have hx := List.mem_of_find?_eq_some hf
            have hnn := List.find?_some hf
            simp only [beq_iff_eq] at hnn
            subst hnn
            refine ⟨x, (sortOn_perm _).mem_iff.2 hx, ms, rfl, ⟨s, by rw [← child x hx]; exact h1, h2⟩, ?_⟩
            intro k hk s' hs'
            have := h3 (k + 1) (by simpa using hk) s'
            rw [List.take_succ_cons, child x hx] at this
            exact this hs'
    · rcases k3 with k3 | ⟨x, hx, ms, s, k3, k4, k5⟩
      · exact Or.inl k3
      · have hx := (sortOn_perm _).mem_iff.1 hx
        exact Or.inr ⟨x.1 :: ms, s, k3, by rw [child x hx]; exact k4, k5⟩

/-- Every folder found is one of those visited. -/
theorem loop_mem {rel : Str → Tree → Bool} {l : List (Str × Tree)} {last p : Str} (h : p ∈ releaseLoop rel last l) :
    ∃ t, (p, t) ∈ l ∧ rel (basename p) t = true := by
  induction l generalizing last with
  | nil => simp [releaseLoop] at h
  | cons x l ih =>
    obtain ⟨q, t⟩ := x
    simp only [releaseLoop] at h
    split at h
    · obtain ⟨t, h1, h2⟩ := ih h; exact ⟨t, by simp [h1], h2⟩
    · split at h
      · rename_i hr
        rcases List.mem_cons.1 h with rfl | h
        · exact ⟨t, by simp, hr⟩
        · obtain ⟨t, h1, h2⟩ := ih h; exact ⟨t, by simp [h1], h2⟩
      · obtain ⟨t, h1, h2⟩ := ih h; exact ⟨t, by simp [h1], h2⟩

theorem loop_sub {rel : Str → Tree → Bool} (l : List (Str × Tree)) (last : Str) : (releaseLoop rel last l).Sublist (l.map (·.1)) := by
  induction l generalizing last with
  | nil => exact List.Sublist.refl _
  | cons x l ih =>
    obtain ⟨q, t⟩ := x
    simp only [releaseLoop, List.map_cons]
    split
    · exact (ih _).cons _
    · split
      · exact (ih _).cons_cons _
      · exact (ih _).cons _

/-- Nothing is found inside of a folder that is found. -/
theorem loop_apart {rel : Str → Tree → Bool} {root : Str} (hr : RootOk root) {T : Tree} (hT : NamesOk T) :
    ∀ t : Tree, ∀ ns, folderAt T ns = some t → ∀ last a b, (∀ n ∈ a, 0x2F ∉ n) → (∀ n ∈ b, 0x2F ∉ n) →
      pathAt root (ns ++ a) ∈ releaseLoop rel last (t.walk (pathAt root ns)) →
      pathAt root (ns ++ b) ∈ releaseLoop rel last (t.walk (pathAt root ns)) → a <+: b → a = b := by
  refine tree_induct ?_
  intro files dirs ih ns hns last a b ha hb pa pb hab
  have hok := NamesOk.sub hT hns
  have hpath := pathAt_ok hT hr hns
  have hnn := folderAt_names hT hns
  -- what is found in the folders below
  have key : ∀ l : List (Str × Tree), (l.map (·.1)).Nodup → (∀ x ∈ l, x ∈ dirs.toList) → ∀ last a b, (∀ n ∈ a, 0x2F ∉ n) → (∀ n ∈ b, 0x2F ∉ n) →
      pathAt root (ns ++ a) ∈ releaseLoop rel last (l.flatMap fun x => x.2.walk (posixJoin2 (pathAt root ns) x.1)) →
      (a ≠ [] ∧ ∃ x ∈ l, a.head? = some x.1) ∧
      (pathAt root (ns ++ b) ∈ releaseLoop rel last (l.flatMap fun x => x.2.walk (posixJoin2 (pathAt root ns) x.1)) → a <+: b → a = b) := by
    intro l
    induction l with
    | nil => intro _ _ last a b _ _ h; simp [releaseLoop] at h
    | cons x l ihl =>
      intro hd hm last a b ha hb h
      rw [List.map_cons, List.nodup_cons] at hd
      have hx : x ∈ dirs.toList := hm x (by simp)
      obtain ⟨h1, h2⟩ := (hok [] _ rfl).2 x hx
      have hc : folderAt (.mk files dirs) [x.1] = some x.2 := folderAt_child hok hx
      have hat : folderAt T (ns ++ [x.1]) = some x.2 := by rw [folderAt_append, hns]; exact hc
      rw [List.flatMap_cons, join_eq hpath h1 h2, (releaseLoop_append rel _ _ last).1] at h ⊢
      rw [List.mem_append] at h
      have here : ∀ c, (∀ n ∈ c, 0x2F ∉ n) → pathAt root (ns ++ c) ∈ releaseLoop rel last (x.2.walk (pathAt root ns ++ 0x2F :: x.1)) → ∃ c', c = x.1 :: c' := by
        intro c hcn hcm
        obtain ⟨t, h3, _⟩ := loop_mem hcm
        rw [← pathAt_snoc] at h3
        have hok' := pathAt_ok hT hr hat
        obtain ⟨ms, e, hf⟩ := (mem_walk x.2 (NamesOk.sub hT hat) _ hok' _ t).1 h3
        rw [← pathAt_append, List.append_assoc] at e
        have := pathAt_inj (a := ns ++ c) (b := ns ++ ([x.1] ++ ms)) (by
          intro n hn
          rcases List.mem_append.1 hn with hn | hn
          · exact (hnn n hn).2
          · exact hcn n hn) (by
          intro n hn
          rcases List.mem_append.1 hn with hn | hn
          · exact (hnn n hn).2
          · rcases List.mem_append.1 hn with hn | hn
            · rw [List.mem_singleton] at hn; rw [hn]; exact h2
            · exact (folderAt_names (NamesOk.sub hT hat) hf n hn).2) e
        exact ⟨ms, by simpa using List.append_cancel_left this⟩
      rcases h with h | h
      · obtain ⟨a', rfl⟩ := here a ha h
        refine ⟨⟨by simp, x, by simp, rfl⟩, ?_⟩
        intro hb' hpre
        obtain ⟨z, rfl⟩ := hpre
        rw [List.mem_append] at hb'
        rcases hb' with hb' | hb'
        · have := ih x hx (ns ++ [x.1]) hat last a' (a' ++ z) (fun n hn => ha n (by simp [hn])) (fun n hn => hb n (by simp at hn ⊢; exact Or.inr hn))
            (by rw [pathAt_snoc]; simpa using h) (by rw [pathAt_snoc]; simpa using hb') (List.prefix_append _ _)
          simp only [List.cons_append, List.cons.injEq, true_and]
          exact this
        · obtain ⟨⟨_, y, hy, e⟩, _⟩ := ihl hd.2 (fun y hy => hm y (by simp [hy])) _ _ [] hb (by simp) hb'
          simp only [List.cons_append, List.head?_cons, Option.some.injEq] at e
          exact absurd (List.mem_map.2 ⟨y, hy, e.symm⟩) hd.1
      · obtain ⟨⟨hne, y, hy, e⟩, rest⟩ := ihl hd.2 (fun y hy => hm y (by simp [hy])) _ a b ha hb h
        refine ⟨⟨hne, y, by simp [hy], e⟩, ?_⟩
        intro hb' hpre
        rw [List.mem_append] at hb'
        rcases hb' with hb' | hb'
        · obtain ⟨b', rfl⟩ := here b hb hb'
          obtain ⟨z, hz⟩ := hpre
          cases a with
          | nil => exact absurd rfl hne
          | cons c a =>
            simp only [List.cons_append, List.cons.injEq] at hz
            simp only [List.head?_cons, Option.some.injEq] at e
            exact absurd (List.mem_map.2 ⟨y, hy, by rw [← e, hz.1]⟩) hd.1
        · exact rest hb' hpre
  have hnd : ((sortOn dirs.toList).map (·.1)).Nodup := by
    have := ((sortOn_perm dirs.toList).map (·.1)).nodup_iff
    exact this.2 (hok [] _ rfl).1
  have key := key (sortOn dirs.toList) hnd (fun x hx => (sortOn_perm _).mem_iff.1 hx)
  have nilOf : ∀ c, (∀ n ∈ c, 0x2F ∉ n) → pathAt root (ns ++ c) = pathAt root ns → c = [] := by
    intro c hc e
    have := pathAt_inj (a := ns ++ c) (b := ns) (by
      intro n hn
      rcases List.mem_append.1 hn with hn | hn
      · exact (hnn n hn).2
      · exact hc n hn) (fun n hn => (hnn n hn).2) e
    simpa using this
  rw [walk_eq] at pa pb
  simp only [releaseLoop] at pa pb
  split at pa
  · rename_i hl
    rw [if_pos hl] at pb
    exact (key last a b ha hb pa).2 pb hab
  · rename_i hl
    rw [if_neg hl] at pb
    split at pa
    · rename_i hrel
      rw [if_pos hrel] at pb
      have hbel : ∀ x ∈ (sortOn dirs.toList).flatMap (fun x => x.2.walk (posixJoin2 (pathAt root ns) x.1)), leftOut (pathAt root ns) x.1 = true := by
        intro x hx
        rw [List.mem_flatMap] at hx
        obtain ⟨y, hy, hx⟩ := hx
        have hy := (sortOn_perm _).mem_iff.1 hy
        obtain ⟨h1, h2⟩ := (hok [] _ rfl).2 y hy
        rw [join_eq hpath h1 h2] at hx
        obtain ⟨p, s⟩ := x
        have hc : folderAt (.mk files dirs) [y.1] = some y.2 := folderAt_child hok hy
        obtain ⟨ms, rfl, hm⟩ := (mem_walk y.2 (NamesOk.sub hok hc) _ (rootOk_snoc h1 h2) p s).1 hx
        refine leftOut_below (ns := y.1 :: ms) hpath (by simp) ?_
        refine folderAt_names hok (s := s) ?_
        rw [show y.1 :: ms = [y.1] ++ ms from rfl, folderAt_append, hc]
        exact hm
      rw [(releaseLoop_below rel hbel).1, List.mem_singleton] at pa pb
      rw [nilOf a ha pa, nilOf b hb pb]
    · rename_i hrel
      rw [if_neg hrel] at pb
      exact (key last a b ha hb pa).2 pb hab

/-- The paths of a walk are different. -/
theorem walk_nodup {root : Str} (hr : RootOk root) {T : Tree} (hT : NamesOk T) : ((T.walk root).map (·.1)).Nodup := by
  have gen : ∀ t : Tree, NamesOk t → ∀ root, RootOk root → ((t.walk root).map (·.1)).Nodup := by
    refine tree_induct ?_
    intro files dirs ih h root hr
    rw [walk_eq, List.map_cons, List.nodup_cons]
    have pathOf : ∀ x ∈ dirs.toList, ∀ p, p ∈ (x.2.walk (root ++ 0x2F :: x.1)).map (·.1) → ∃ ms, (∀ n ∈ x.1 :: ms, 0x2F ∉ n) ∧ p = pathAt root (x.1 :: ms) := by
      intro x hx p hp
      obtain ⟨⟨q, s⟩, hq, rfl⟩ := List.mem_map.1 hp
      obtain ⟨h1, h2⟩ := (h [] _ rfl).2 x hx
      have hc : folderAt (.mk files dirs) [x.1] = some x.2 := folderAt_child h hx
      obtain ⟨ms, rfl, hm⟩ := (mem_walk x.2 (NamesOk.sub h hc) _ (rootOk_snoc h1 h2) q s).1 hq
      refine ⟨ms, ?_, rfl⟩
      intro n hn
      rcases List.mem_cons.1 hn with rfl | hn
      · exact h2
      · exact (folderAt_names (NamesOk.sub h hc) hm n hn).2
    constructor
    · intro hm
      rw [List.map_flatMap, List.mem_flatMap] at hm
      obtain ⟨x, hx, hp⟩ := hm
      have hx := (sortOn_perm _).mem_iff.1 hx
      obtain ⟨h1, h2⟩ := (h [] _ rfl).2 x hx
      rw [join_eq hr h1 h2] at hp
      obtain ⟨ms, hn, e⟩ := pathOf x hx _ hp
      have := pathAt_inj (a := []) (by simp) hn e
      simp at this
    · have : ∀ l : List (Str × Tree), (l.map (·.1)).Nodup → (∀ x ∈ l, x ∈ dirs.toList) →
          ((l.flatMap fun x => x.2.walk (posixJoin2 root x.1)).map (·.1)).Nodup := by
        intro l
        induction l with
        | nil => intro _ _; simp
        | cons x l ihl =>
          intro hd hm
          rw [List.map_cons, List.nodup_cons] at hd
          have hx : x ∈ dirs.toList := hm x (by simp)
          obtain ⟨h1, h2⟩ := (h [] _ rfl).2 x hx
          rw [List.flatMap_cons, List.map_append, List.nodup_append, join_eq hr h1 h2]
          refine ⟨ih x hx (NamesOk.sub h (folderAt_child h hx)) _ (rootOk_snoc h1 h2), ihl hd.2 fun y hy => hm y (by simp [hy]), ?_⟩
          intro p hp q hq e
          subst e
          rw [List.map_flatMap, List.mem_flatMap] at hq
          obtain ⟨y, hy, hq⟩ := hq
          have hy' : y ∈ dirs.toList := hm y (by simp [hy])
          obtain ⟨g1, g2⟩ := (h [] _ rfl).2 y hy'
          rw [join_eq hr g1 g2] at hq
          obtain ⟨ms, hn, e⟩ := pathOf x hx _ hp
          obtain ⟨ms', hn', e'⟩ := pathOf y hy' _ hq
          have := pathAt_inj hn hn' (e.symm.trans e')
          simp only [List.cons.injEq] at this
          exact hd.1 (List.mem_map.2 ⟨y, hy, this.1.symm⟩)
      exact this _ (((sortOn_perm dirs.toList).map (·.1)).nodup_iff.2 (h [] _ rfl).1) fun x hx => (sortOn_perm _).mem_iff.1 hx
  exact gen T hT root hr

/-! ### The patterns for names -/

/-- The texts that a pattern matches, wherever it is tried. -/
def HasLang (x : Rx) (L : Str → Prop) : Prop := ∀ b r z, z ∈ x.ends (b, r) ↔ ∃ u v, r = u ++ v ∧ L u ∧ z = (u.reverse ++ b, v)

theorem lang_cls (p : Nat → Bool) : HasLang (.cls p) fun u => ∃ c, u = [c] ∧ p c = true := by
  intro b r z
  rw [mem_cls]
  constructor
  · rintro ⟨c, t, rfl, h, rfl⟩
    exact ⟨[c], t, rfl, ⟨c, rfl, h⟩, rfl⟩
  · rintro ⟨u, v, rfl, ⟨c, rfl, h⟩, rfl⟩
    exact ⟨c, v, rfl, h, rfl⟩

theorem lang_many (p : Nat → Bool) : HasLang (.many p) fun u => ∀ c ∈ u, p c = true := by
  intro b r z
  rw [mem_many]

theorem lang_seq {x y : Rx} {L M : Str → Prop} (hx : HasLang x L) (hy : HasLang y M) :
    HasLang (.seq x y) fun u => ∃ a b, u = a ++ b ∧ L a ∧ M b := by
  intro b r z
  rw [mem_seq]
  constructor
  · rintro ⟨w, h1, h2⟩
    obtain ⟨u, v, rfl, hu, rfl⟩ := (hx b r w).1 h1
    obtain ⟨u', v', rfl, hu', rfl⟩ := (hy _ _ z).1 h2
    exact ⟨u ++ u', v', by simp, ⟨u, u', rfl, hu, hu'⟩, by simp⟩
  · rintro ⟨u, v, rfl, ⟨p, q, rfl, hp, hq⟩, rfl⟩
    exact ⟨_, (hx _ _ _).2 ⟨p, q ++ v, by simp, hp, rfl⟩, (hy _ _ _).2 ⟨q, v, rfl, hq, by simp⟩⟩

theorem lang_alt {x y : Rx} {L M : Str → Prop} (hx : HasLang x L) (hy : HasLang y M) : HasLang (.alt x y) fun u => L u ∨ M u := by
  intro b r z
  rw [mem_alt, hx, hy]
  constructor
  · rintro (⟨u, v, h1, h2, h3⟩ | ⟨u, v, h1, h2, h3⟩)
    · exact ⟨u, v, h1, Or.inl h2, h3⟩
    · exact ⟨u, v, h1, Or.inr h2, h3⟩
  · rintro ⟨u, v, h1, h2 | h2, h3⟩
    · exact Or.inl ⟨u, v, h1, h2, h3⟩
    · exact Or.inr ⟨u, v, h1, h2, h3⟩

theorem lang_congr {x : Rx} {L M : Str → Prop} (hx : HasLang x L) (h : ∀ u, L u ↔ M u) : HasLang x M := by
  have : L = M := funext fun u => propext (h u)
  rwa [← this]

theorem lang_eps : HasLang rxEps fun u => u = [] := by
  refine lang_congr (lang_many _) fun u => ?_
  constructor
  · intro h
    cases u with
    | nil => rfl
    | cons c u => exact absurd (h c (by simp)) (by simp)
  · rintro rfl
    simp

theorem lang_opt {x : Rx} {L : Str → Prop} (hx : HasLang x L) : HasLang (rxOpt x) fun u => L u ∨ u = [] := lang_alt hx lang_eps

theorem lang_some (p : Nat → Bool) : HasLang (rxSome p) fun u => u ≠ [] ∧ ∀ c ∈ u, p c = true := by
  refine lang_congr (lang_seq (lang_cls p) (lang_many p)) fun u => ?_
  constructor
  · rintro ⟨a, b, rfl, ⟨c, rfl, h1⟩, h2⟩
    refine ⟨by simp, ?_⟩
    intro x hx
    rcases List.mem_cons.1 hx with rfl | hx
    · exact h1
    · exact h2 x hx
  · rintro ⟨h1, h2⟩
    cases u with
    | nil => exact absurd rfl h1
    | cons c u => exact ⟨[c], u, rfl, ⟨c, rfl, h2 c (by simp)⟩, fun x hx => h2 x (by simp [hx])⟩

theorem rxSame_iff {x c : Nat} (hx : ¬ (0x41 ≤ x ∧ x ≤ 0x5A)) : rxSame x c = true ↔ SameLetter c x := by
  unfold rxSame SameLetter
  simp only [Bool.or_eq_true, rxCi_iff hx, Bool.and_eq_true, beq_iff_eq]
  constructor
  · rintro (((h | h) | h) | h)
    · exact Or.inl h
    · exact Or.inr (Or.inl h)
    · exact Or.inr (Or.inr (Or.inl h))
    · exact Or.inr (Or.inr (Or.inr h))
  · rintro (h | h | h | h)
    · exact Or.inl (Or.inl (Or.inl h))
    · exact Or.inl (Or.inl (Or.inr h))
    · exact Or.inl (Or.inr h)
    · exact Or.inr h

theorem lang_word {s : Str} (h : ∀ x ∈ s, ¬ (0x41 ≤ x ∧ x ≤ 0x5A)) : HasLang (rxWord s) fun u => SameWord u s := by
  induction s with
  | nil =>
    refine lang_congr lang_eps fun u => ?_
    cases u <;> simp [SameWord]
  | cons x s ih =>
    refine lang_congr (lang_seq (lang_cls _) (ih fun y hy => h y (by simp [hy]))) fun u => ?_
    constructor
    · rintro ⟨a, b, rfl, ⟨c, rfl, h1⟩, h2⟩
      exact ⟨(rxSame_iff (h x (by simp))).1 h1, h2⟩
    · intro hu
      cases u with
      | nil => exact hu.elim
      | cons c u => exact ⟨[c], u, rfl, ⟨c, rfl, (rxSame_iff (h x (by simp))).2 hu.1⟩, hu.2⟩

theorem test_lang {x : Rx} {L : Str → Prop} (hx : HasLang x L) (s : Str) :
    (Rx.seq .bos (.seq x .eos)).test s = true ↔ ∃ w, L w ∧ (s = w ∨ s = w ++ [0x0A]) := by
  rw [test_iff]
  constructor
  · rintro ⟨z, hz⟩
    obtain ⟨w, h1, h2⟩ := mem_seq.1 hz
    obtain ⟨w', h3, h4⟩ := mem_seq.1 h2
    obtain ⟨_, rfl⟩ := mem_bos.1 h1
    obtain ⟨u, v, rfl, hu, rfl⟩ := (hx _ _ _).1 h3
    obtain ⟨hv, _⟩ := mem_eos.1 h4
    rcases hv with hv | hv
    · exact ⟨u, hu, Or.inl (by simp only at hv; simp [hv])⟩
    · exact ⟨u, hu, Or.inr (by simp only at hv; simp [hv])⟩
  · rintro ⟨u, hu, h⟩
    have : ∃ v, s = u ++ v ∧ (v = [] ∨ v = [0x0A]) := by
      rcases h with rfl | rfl
      · exact ⟨[], by simp, Or.inl rfl⟩
      · exact ⟨[0x0A], rfl, Or.inr rfl⟩
    obtain ⟨v, rfl, hv⟩ := this
    refine ⟨(u.reverse, v), mem_seq.2 ⟨_, mem_bos.2 ⟨rfl, rfl⟩, mem_seq.2 ⟨(u.reverse, v), (hx _ _ _).2 ⟨u, v, rfl, hu, by simp⟩, mem_eos.2 ⟨hv, rfl⟩⟩⟩⟩

/-- One of some words. -/
def Words (ws : List Str) (u : Str) : Prop := ∃ w ∈ ws, SameWord u w

theorem sameWord_append {p q : Str} : ∀ {u : Str}, SameWord u (p ++ q) ↔ ∃ a b, u = a ++ b ∧ SameWord a p ∧ SameWord b q := by
  induction p with
  | nil =>
    intro u
    constructor
    · intro h; exact ⟨[], u, rfl, trivial, h⟩
    · rintro ⟨a, b, rfl, ha, hb⟩
      cases a with
      | nil => exact hb
      | cons => exact ha.elim
  | cons x p ih =>
    intro u
    cases u with
    | nil =>
      constructor
      · intro h; exact h.elim
      · rintro ⟨a, b, h, ha, _⟩
        cases a with
        | nil => exact ha.elim
        | cons => simp at h
    | cons c u =>
      constructor
      · rintro ⟨h1, h2⟩
        obtain ⟨a, b, rfl, ha, hb⟩ := ih.1 h2
        exact ⟨c :: a, b, rfl, ⟨h1, ha⟩, hb⟩
      · rintro ⟨a, b, h, ha, hb⟩
        cases a with
        | nil => exact ha.elim
        | cons d a =>
          simp only [List.cons_append, List.cons.injEq] at h
          obtain ⟨rfl, rfl⟩ := h
          exact ⟨ha.1, ih.2 ⟨a, b, rfl, ha.2, hb⟩⟩

theorem words_one {s : Str} (h : ∀ x ∈ s, ¬ (0x41 ≤ x ∧ x ≤ 0x5A)) : HasLang (rxWord s) (Words [s]) :=
  lang_congr (lang_word h) fun u => by simp [Words]

theorem words_opt {s : Str} (h : ∀ x ∈ s, ¬ (0x41 ≤ x ∧ x ≤ 0x5A)) : HasLang (rxOpt (rxWord s)) (Words [s, []]) :=
  lang_congr (lang_opt (lang_word h)) fun u => by
    have : u = [] ↔ SameWord u [] := by cases u <;> simp [SameWord]
    rw [this]
    simp [Words]

theorem words_seq {x y : Rx} {a b : List Str} (hx : HasLang x (Words a)) (hy : HasLang y (Words b)) :
    HasLang (.seq x y) (Words (a.flatMap fun p => b.map (p ++ ·))) := by
  refine lang_congr (lang_seq hx hy) fun u => ?_
  constructor
  · rintro ⟨p, q, rfl, ⟨w, hw, h1⟩, ⟨w', hw', h2⟩⟩
    exact ⟨w ++ w', List.mem_flatMap.2 ⟨w, hw, List.mem_map.2 ⟨w', hw', rfl⟩⟩, sameWord_append.2 ⟨p, q, rfl, h1, h2⟩⟩
  · rintro ⟨w, hw, h⟩
    obtain ⟨p, hp, hw⟩ := List.mem_flatMap.1 hw
    obtain ⟨q, hq, rfl⟩ := List.mem_map.1 hw
    obtain ⟨c, d, rfl, h1, h2⟩ := sameWord_append.1 h
    exact ⟨c, d, rfl, ⟨p, hp, h1⟩, ⟨q, hq, h2⟩⟩

theorem words_alt {x y : Rx} {a b : List Str} (hx : HasLang x (Words a)) (hy : HasLang y (Words b)) : HasLang (.alt x y) (Words (a ++ b)) := by
  refine lang_congr (lang_alt hx hy) fun u => ?_
  simp only [Words, List.mem_append]
  constructor
  · rintro (⟨w, h1, h2⟩ | ⟨w, h1, h2⟩)
    · exact ⟨w, Or.inl h1, h2⟩
    · exact ⟨w, Or.inr h1, h2⟩
  · rintro ⟨w, h1 | h1, h2⟩
    · exact Or.inl ⟨w, h1, h2⟩
    · exact Or.inr ⟨w, h1, h2⟩

theorem lang_parts : HasLang partsRx (Words partNames) := by
  have h := words_alt
    (words_seq (words_opt (s := str "vob") (by decide)) (words_seq (words_one (s := str "sample") (by decide)) (words_opt (s := str "s") (by decide))))
    (words_alt (words_seq (words_one (s := str "cover") (by decide)) (words_opt (s := str "s") (by decide)))
      (words_alt (words_seq (words_one (s := str "proof") (by decide)) (words_opt (s := str "s") (by decide)))
        (words_alt (words_seq (words_one (s := str "sub") (by decide)) (words_seq (words_opt (s := str "s") (by decide)) (words_opt (s := str "pack") (by decide))))
          (words_seq (words_opt (s := str "vob") (by decide)) (words_seq (words_one (s := str "sub") (by decide)) (words_opt (s := str "s") (by decide)))))))
  refine lang_congr h fun u => ?_
  unfold Words
  constructor
  · rintro ⟨w, hw, h⟩
    exact ⟨w, (by decide +kernel : ∀ w ∈ _, w ∈ partNames) w hw, h⟩
  · rintro ⟨w, hw, h⟩
    exact ⟨w, (by decide +kernel : ∀ w ∈ partNames, w ∈ _) w hw, h⟩

theorem lang_disk (dig : Nat → Bool) : HasLang (diskRx dig) (DiskName dig) := by
  have kinds := words_alt (words_one (s := str "cd") (by decide)) (words_alt (words_one (s := str "disk") (by decide))
    (words_alt (words_one (s := str "dvd") (by decide)) (words_alt (words_one (s := str "disc") (by decide)) (words_one (s := str "part") (by decide)))))
  have h := lang_seq kinds (lang_seq (lang_opt (lang_cls fun c => c == 0x2E || c == 0x5F)) (lang_seq (lang_cls dig) (lang_seq (lang_opt (lang_cls dig))
    (lang_opt (lang_seq (lang_opt (lang_cls fun c => c == 0x5F || c == 0x2E || c == 0x2D)) (lang_some fun c => rxAlnum c || c == 0x2E || c == 0x5F))))))
  refine lang_congr h fun u => ?_
  unfold DiskName
  constructor
  · rintro ⟨k, _, rfl, ⟨kind, hk, hkk⟩, sep, _, rfl, hsep, _, _, rfl, ⟨c, rfl, hc⟩, d2, tail, rfl, hd2, htail⟩
    refine ⟨kind, hk, k, sep, c :: d2, tail, by simp, hkk, ?_, ?_, ?_, ?_⟩
    · rcases hsep with ⟨x, rfl, hx⟩ | rfl
      · simp only [Bool.or_eq_true, beq_iff_eq] at hx
        rcases hx with rfl | rfl <;> decide
      · simp
    · rcases hd2 with ⟨x, rfl, hx⟩ | rfl <;> simp
    · rcases hd2 with ⟨x, rfl, hx⟩ | rfl
      · simp [hc, hx]
      · simp [hc]
    · rcases htail with ⟨s', rest, rfl, hs', hne, hrest⟩ | rfl
      · right
        refine ⟨s', rest, rfl, ?_, hne, ?_⟩
        · rcases hs' with ⟨x, rfl, hx⟩ | rfl
          · simp only [Bool.or_eq_true, beq_iff_eq] at hx
            rcases hx with (rfl | rfl) | rfl <;> decide
          · simp
        · intro x hx
          have := hrest x hx
          simp only [Bool.or_eq_true, beq_iff_eq] at this
          rcases this with (h | h) | h
          · exact Or.inl h
          · exact Or.inr (Or.inl h)
          · exact Or.inr (Or.inr h)
      · exact Or.inl rfl
  · rintro ⟨kind, hk, k, sep, d, tail, rfl, hkk, hsep, hlen, hd, htail⟩
    obtain ⟨c, d2, rfl, hd2⟩ : ∃ c d2, d = c :: d2 ∧ ((∃ x, d2 = [x] ∧ dig x = true) ∨ d2 = []) := by
      rcases d with _ | ⟨c, _ | ⟨x, _ | ⟨y, d⟩⟩⟩
      · simp at hlen
      · exact ⟨c, [], rfl, Or.inr rfl⟩
      · exact ⟨c, [x], rfl, Or.inl ⟨x, rfl, hd x (by simp)⟩⟩
      · simp at hlen
    refine ⟨k, sep ++ (c :: d2 ++ tail), by simp, ⟨kind, hk, hkk⟩, sep, c :: d2 ++ tail, rfl, ?_, [c], d2 ++ tail, by simp, ⟨c, rfl, hd c (by simp)⟩,
      d2, tail, rfl, hd2, ?_⟩
    · simp only [List.mem_cons, List.not_mem_nil, or_false] at hsep
      rcases hsep with rfl | rfl | rfl
      · exact Or.inr rfl
      · exact Or.inl ⟨0x2E, rfl, rfl⟩
      · exact Or.inl ⟨0x5F, rfl, rfl⟩
    · rcases htail with rfl | ⟨s', rest, rfl, hs', hne, hrest⟩
      · exact Or.inr rfl
      · left
        refine ⟨s', rest, rfl, ?_, hne, ?_⟩
        · simp only [List.mem_cons, List.not_mem_nil, or_false] at hs'
          rcases hs' with rfl | rfl | rfl | rfl
          · exact Or.inr rfl
          · exact Or.inl ⟨0x5F, rfl, rfl⟩
          · exact Or.inl ⟨0x2E, rfl, rfl⟩
          · exact Or.inl ⟨0x2D, rfl, rfl⟩
        · intro x hx
          simp only [Bool.or_eq_true, beq_iff_eq]
          rcases hrest x hx with h | h | h
          · exact Or.inl (Or.inl h)
          · exact Or.inl (Or.inr h)
          · exact Or.inr h

theorem hasSfv_iff {lower : Str → Str} {t : Tree} : hasSfv lower t = true ↔ WithSfv lower t := by
  unfold hasSfv WithSfv endsWith
  rw [List.any_eq_true]
  simp only [List.isSuffixOf_iff_suffix]

theorem noHyphen_iff {s : Str} : noHyphen s = true ↔ PlainName s := by
  unfold noHyphen PlainName
  rw [test_lang (lang_some _)]
  constructor
  · rintro ⟨w, ⟨h1, h2⟩, h3⟩
    exact ⟨w, h1, fun c hc => by simpa using h2 c hc, h3⟩
  · rintro ⟨w, h1, h2, h3⟩
    exact ⟨w, ⟨h1, fun c hc => by simpa using h2 c hc⟩, h3⟩

theorem releaseFolder_iff {dig : Nat → Bool} {s : Str} :
    releaseFolder dig s = true ↔ ∃ w, (DiskName dig w ∨ ∃ x ∈ partNames, SameWord w x) ∧ (s = w ∨ s = w ++ [0x0A]) :=
  test_lang (lang_alt (lang_disk dig) lang_parts) s

theorem badName_iff {dig : Nat → Bool} {s : Str} : (releaseFolder dig s = true ∨ spaceless s = false) ↔ NotReleaseName dig s := by
  unfold NotReleaseName
  rw [releaseFolder_iff]
  have : spaceless s = false ↔ 0x20 ∈ s := by simp [spaceless]
  rw [this]
  exact Or.comm

theorem loneNfo_iff {lower : Str → Str} {files : List Str} : loneNfo lower files = true ↔ ∃ f, files = [f] ∧ str ".nfo" <:+ lower f := by
  match files with
  | [] => simp [loneNfo]
  | _ :: _ :: _ => simp [loneNfo]
  | [f] => simp [loneNfo, endsWith]

theorem arePack_iff {dig : Nat → Bool} {lower : Str → Str} (d : Dirs) :
    d.arePack dig lower = true ↔ ∀ x ∈ d.toList, x.2.isRelease dig lower x.1 = true ∨ x.2.listdir = [] := by
  match d with
  | .nil => simp [Dirs.arePack, Dirs.toList]
  | .cons n t rest =>
    rw [Dirs.arePack, Bool.and_eq_true, arePack_iff rest]
    simp [Dirs.toList]

theorem count_all {α : Type} (l : List α) (p q : α → Bool) : l.length = ((l.filter p).filter q).length ↔ ∀ x ∈ l, p x = true ∧ q x = true := by
  rw [List.filter_filter]
  constructor
  · intro h x hx
    have := List.length_filter_eq_length_iff.1 h.symm x hx
    simp only [Bool.and_eq_true] at this
    exact ⟨this.2, this.1⟩
  · intro h
    refine (List.length_filter_eq_length_iff.2 ?_).symm
    intro x hx
    simp [h x hx]

/-! ### Checking concrete trees -/

mutual
/-- All folders of a tree. -/
def Tree.places : Tree → List (List Str × Tree)
  | .mk files dirs => ([], .mk files dirs) :: dirs.places
def Dirs.places : Dirs → List (List Str × Tree)
  | .nil => []
  | .cons n t rest => (t.places.map fun x => (n :: x.1, x.2)) ++ rest.places
end

theorem dirs_places (d : Dirs) : d.places = d.toList.flatMap fun x => x.2.places.map fun y => (x.1 :: y.1, y.2) := by
  match d with
  | .nil => rfl
  | .cons n t rest => rw [Dirs.places, Dirs.toList, List.flatMap_cons, dirs_places rest]

theorem mem_places : ∀ t : Tree, ∀ m s, folderAt t m = some s → (m, s) ∈ t.places := by
  refine tree_induct ?_
  intro files dirs ih m s h
  rw [Tree.places, List.mem_cons]
  cases m with
  | nil =>
    left
    simp only [folderAt, Option.some.injEq] at h
    rw [h]
  | cons n m =>
    right
    simp only [folderAt] at h
    cases hf : ((Tree.mk files dirs).dirs.toList.find? fun d => d.1 == n) with
    | none => rw [hf] at h; simp at h
    | some x =>
      rw [hf] at h
      have hx : x ∈ dirs.toList := List.mem_of_find?_eq_some hf
      have hn := List.find?_some hf
      simp only [beq_iff_eq] at hn
      subst hn
      rw [dirs_places, List.mem_flatMap]
      exact ⟨x, hx, List.mem_map.2 ⟨(m, s), ih x hx m s h, rfl⟩⟩

theorem namesOk_check {t : Tree} (h : t.places.all (fun x => decide ((x.2.dirs.toList.map (·.1)).Nodup) &&
    x.2.dirs.toList.all fun d => !d.1.isEmpty && !d.1.contains 0x2F) = true) : NamesOk t := by
  intro ns s hs
  have := List.all_eq_true.1 h _ (mem_places t ns s hs)
  rw [Bool.and_eq_true, decide_eq_true_eq, List.all_eq_true] at this
  refine ⟨this.1, ?_⟩
  intro d hd
  have := this.2 d hd
  simpa using this

theorem notInside_check {rel : Str → Tree → Bool} {root : Str} {t : Tree} (h : t.places.all (fun x => !rel (nameAt root x.1) x.2 ||
    t.places.all fun y => x.1.isPrefixOf y.1 || !isIn (pathAt root x.1) (pathAt root y.1) ||
      parentLength (pathAt root x.1) == parentLength (pathAt root y.1)) = true) : ¬ LooksInside rel root t := by
  rintro ⟨m, s, n, s', h1, h2, h3, h4, h5, h6⟩
  have := List.all_eq_true.1 h _ (mem_places t m s h1)
  simp only [h2, Bool.not_true, Bool.false_or] at this
  have := List.all_eq_true.1 this _ (mem_places t n s' h3)
  simp only [Bool.or_eq_true, List.isPrefixOf_iff_prefix, Bool.not_eq_true', beq_iff_eq] at this
  rcases this with (h | h) | h
  · exact h4 h
  · rw [(isIn_iff _ _).2 h5] at h
    simp at h
  · exact h6 h

end Rescene
