import Verif.Model.AutoFind
import Verif.Spec.AutoFind
import Verif.Lemmas.Release
import Verif.Lemmas.AutoSfvs
/-
Lemmas about the files that a walk finds.
-/
namespace Rescene
open Spec

theorem dirsFound_eq (path : Str) : ∀ d : Dirs, d.found path = d.toList.flatMap fun x => x.2.found (posixJoin2 path x.1)
  | .nil => rfl
  | .cons n t rest => by simp [Dirs.found, Dirs.toList, dirsFound_eq path rest]

/-- The files of the folders of a walk. -/
def walkFiles (l : List (Str × Tree)) : List (Str × Str) := l.flatMap fun x => x.2.files.map fun f => (posixJoin2 x.1 f, f)

theorem found_perm : ∀ (t : Tree) (path : Str), (t.found path).Perm (walkFiles (t.walk path)) := by
  refine tree_induct ?_
  intro files dirs ih path
  rw [Tree.found, dirsFound_eq, walk_eq, walkFiles, List.flatMap_cons]
  refine List.Perm.append_left _ ?_
  rw [List.flatMap_assoc]
  refine List.Perm.trans ?_ ((sortOn_perm dirs.toList).symm.flatMap_right _)
  have : ∀ l : List (Str × Tree), (∀ x ∈ l, x ∈ dirs.toList) → (l.flatMap fun x => x.2.found (posixJoin2 path x.1)).Perm
      (l.flatMap fun x => (x.2.walk (posixJoin2 path x.1)).flatMap fun x => x.2.files.map fun f => (posixJoin2 x.1 f, f)) := by
    intro l
    induction l with
    | nil => intro _; simp
    | cons x l ihl =>
      intro h
      simp only [List.flatMap_cons]
      exact (ih x (h x (by simp)) _).append (ihl fun y hy => h y (by simp [hy]))
  exact this _ fun _ h => h

theorem mem_found {t : Tree} (hn : NamesOk t) (hf : FilesOk t) {root : Str} (hr : RootOk root) (full name : Str) :
    (full, name) ∈ t.found root ↔ FileAt root t full name := by
  rw [(found_perm t root).mem_iff, walkFiles, List.mem_flatMap]
  constructor
  · rintro ⟨⟨p, s⟩, hp, hm⟩
    obtain ⟨ns, rfl, hs⟩ := (mem_walk t hn root hr p s).1 hp
    obtain ⟨f, hfm, e⟩ := List.mem_map.1 hm
    cases e
    obtain ⟨h1, h2⟩ := (hf ns s hs).2 name hfm
    refine ⟨ns, s, hs, hfm, ?_⟩
    rw [join_eq (pathAt_ok hn hr hs) h1 h2, pathAt_snoc]
  · rintro ⟨ns, s, hs, hm, rfl⟩
    obtain ⟨h1, h2⟩ := (hf ns s hs).2 name hm
    refine ⟨(pathAt root ns, s), (mem_walk t hn root hr _ s).2 ⟨ns, rfl, hs⟩, List.mem_map.2 ⟨name, hm, ?_⟩⟩
    dsimp only
    rw [join_eq (pathAt_ok hn hr hs) h1 h2, pathAt_snoc]

theorem nodup_flatMap {α β : Type} {l : List α} {g : α → List β} (h1 : ∀ x ∈ l, (g x).Nodup) (h2 : l.Pairwise fun x y => ∀ a ∈ g x, a ∉ g y) :
    (l.flatMap g).Nodup := by
  induction l with
  | nil => simp
  | cons x l ih =>
    rw [List.flatMap_cons, List.nodup_append]
    rw [List.pairwise_cons] at h2
    refine ⟨h1 x (by simp), ih (fun y hy => h1 y (by simp [hy])) h2.2, ?_⟩
    intro a ha b hb e
    subst e
    obtain ⟨y, hy, hb⟩ := List.mem_flatMap.1 hb
    exact h2.1 y hy a ha hb

theorem found_nodup {t : Tree} (hn : NamesOk t) (hf : FilesOk t) {root : Str} (hr : RootOk root) : ((t.found root).map (·.1)).Nodup := by
  rw [((found_perm t root).map _).nodup_iff, walkFiles, List.map_flatMap]
  have hd := walk_nodup hr hn
  have hall : ∀ x ∈ t.walk root, ∃ ns, x.1 = pathAt root ns ∧ folderAt t ns = some x.2 := fun x hx => (mem_walk t hn root hr x.1 x.2).1 hx
  have hj : ∀ x ∈ t.walk root, ∀ f ∈ x.2.files, posixJoin2 x.1 f = x.1 ++ 0x2F :: f ∧ 0x2F ∉ f := by
    intro x hx f hfm
    obtain ⟨ns, e, hs⟩ := hall x hx
    obtain ⟨h1, h2⟩ := (hf ns _ hs).2 f hfm
    rw [e, join_eq (pathAt_ok hn hr hs) h1 h2]
    exact ⟨rfl, h2⟩
  have inj : ∀ {p q a b : Str}, 0x2F ∉ a → 0x2F ∉ b → p ++ 0x2F :: a = q ++ 0x2F :: b → p = q ∧ a = b := by
    intro p q a b ha hb e
    have e' := congrArg List.reverse e
    simp only [List.reverse_append, List.reverse_cons, List.append_assoc] at e'
    obtain ⟨h1, h2⟩ := upToSlash (a := a.reverse) (b := b.reverse) (by simpa) (by simpa) (Or.inr ⟨p.reverse, rfl⟩) (Or.inr ⟨q.reverse, rfl⟩) e'
    simp only [List.cons.injEq, List.reverse_inj, true_and] at h1 h2
    exact ⟨h2, h1⟩
  refine nodup_flatMap ?_ ?_
  · intro x hx
    obtain ⟨ns, e, hs⟩ := hall x hx
    rw [List.map_map]
    have hnd := (hf ns _ hs).1
    have : ∀ l : List Str, l.Nodup → (∀ f ∈ l, f ∈ x.2.files) → (l.map ((fun y : Str × Str => y.1) ∘ fun f => (posixJoin2 x.1 f, f))).Nodup := by
      intro l
      induction l with
      | nil => intro _ _; simp
      | cons f l ih =>
        intro h hm
        rw [List.nodup_cons] at h
        rw [List.map_cons, List.nodup_cons]
        refine ⟨?_, ih h.2 fun y hy => hm y (by simp [hy])⟩
        intro hc
        obtain ⟨g, hg, e⟩ := List.mem_map.1 hc
        simp only [Function.comp] at e
        obtain ⟨e1, n1⟩ := hj x hx f (hm f (by simp))
        obtain ⟨e2, n2⟩ := hj x hx g (hm g (by simp [hg]))
        rw [e1, e2] at e
        exact h.1 ((inj n2 n1 e).2 ▸ hg)
    exact this _ hnd fun _ h => h
  · rw [List.Nodup, List.pairwise_map] at hd
    refine List.Pairwise.imp_of_mem ?_ hd
    intro x y hx hy hne a ha hb
    obtain ⟨_, h1, rfl⟩ := List.mem_map.1 ha
    obtain ⟨f, hfm, rfl⟩ := List.mem_map.1 h1
    obtain ⟨_, h2, e⟩ := List.mem_map.1 hb
    obtain ⟨g, hgm, rfl⟩ := List.mem_map.1 h2
    dsimp only at e
    obtain ⟨e1, n1⟩ := hj x hx f hfm
    obtain ⟨e2, n2⟩ := hj y hy g hgm
    rw [e1, e2] at e
    exact hne (inj n2 n1 e).1.symm

theorem fileAt_base {t : Tree} (hf : FilesOk t) {root full name : Str} (h : FileAt root t full name) : basename full = name := by
  obtain ⟨ns, s, hs, hm, rfl⟩ := h
  have h2 := ((hf ns s hs).2 name hm).2
  unfold basename
  rw [pathAt_snoc, splitOn_append, splitOn_of_not_mem h2]
  simp

theorem filesOk_check {t : Tree} (h : t.places.all (fun x => decide x.2.files.Nodup && x.2.files.all fun f => !f.isEmpty && !f.contains 0x2F) = true) :
    FilesOk t := by
  intro ns s hs
  have := List.all_eq_true.1 h _ (mem_places t ns s hs)
  rw [Bool.and_eq_true, decide_eq_true_eq, List.all_eq_true] at this
  refine ⟨this.1, ?_⟩
  intro d hd
  have := this.2 d hd
  simpa using this

theorem keepsLower_ascii : KeepsLower lowerStr := by
  intro s h
  unfold lowerStr
  have : s.map lowerCp = s.map id := List.map_congr_left fun c hc => by
    unfold lowerCp
    rw [if_neg (h c hc).2]
    rfl
  rw [this]
  simp

end Rescene
