import Verif.Lemmas.MkvMain
/-
The elements of a movie, as they are seen by the loops that search and extract.
-/
namespace Rescene
open Spec

theorem cut_append {α : Type} {x y a b : List α} {p : α} (h : x ++ y = a ++ p :: b) :
    (∃ b', x = a ++ p :: b' ∧ b = b' ++ y) ∨ ∃ a', a = x ++ a' ∧ y = a' ++ p :: b := by
  rcases List.append_eq_append_iff.1 h with ⟨a', h1, h2⟩ | ⟨c, h1, h2⟩
  · exact Or.inr ⟨a', h1, h2⟩
  · cases c with
    | nil => exact Or.inr ⟨[], by simpa using h1.symm, by simpa using h2.symm⟩
    | cons q c =>
      rw [List.cons_append] at h2
      injection h2 with h2 h3
      subst h2
      exact Or.inl ⟨c, h1, h3⟩

/-- An element of a movie. -/
def MovieTop (t : MkvTop) : Prop :=
  PlainLeaf t ∨ (∃ size, t = .part (.enter segmentId size)) ∨ IsTracks t ∨ IsAttachments t ∨ IsCluster t

/-- Everything about the elements of a movie. -/
structure MovieTops (tops : List MkvTop) (mh : Nat → Bytes) : Prop where
  ok : ∀ t ∈ tops, t.whole.Ok ∧ ∀ p ∈ t.fine, p.Ok
  kind : ∀ t ∈ tops, MovieTop t
  number : ∀ a p b, mkvFine tops = a ++ p :: b → p.id ∈ [compressionId, codecId, compAlgoId, compSettingsId] →
    ∃ size data, .leaf trackNumberId size data ∈ a
  block : ∀ a b c, mkvFine tops = a ++ .block b :: c → Described a b.track ∧ (a.foldl stripStep {}).settings b.track = mh b.track
  attach : ∀ a b c, mkvFine tops = a ++ .block b :: c → attachments none a = attachments none (mkvFine tops)
  names : ∃ l : List (Bytes × Bytes), attachments none (mkvFine tops) = l.map (fun x => (some x.1, x.2)) ∧
    l.Pairwise fun a b => a.1 ≠ b.1

/-- Neither name nor contents of an attached file. -/
def NoFile (p : MkvPart) : Prop := ∀ size data, p ≠ .leaf fileNameId size data ∧ p ≠ .leaf fileDataId size data

theorem attachments_none {a : List MkvPart} (h : ∀ p ∈ a, NoFile p) (name : Option Bytes) : attachments name a = [] := by
  induction a with
  | nil => rfl
  | cons p a ih =>
    have h2 := ih fun q hq => h q (by simp [hq])
    have hp := h p (by simp)
    cases p with
    | enter => exact h2
    | leaf id size data =>
      rw [attachments, if_neg (by rintro rfl; exact (hp size data).1 rfl), if_neg (by rintro rfl; exact (hp size data).2 rfl)]
      exact h2
    | block b => exact h2

/-- The last name. -/
def lastName : Option Bytes → List MkvPart → Option Bytes
  | name, [] => name
  | name, .leaf id _ data :: ps => if id = fileNameId then lastName (some data) ps else lastName name ps
  | name, _ :: ps => lastName name ps

theorem attachments_append (b : List MkvPart) : ∀ (a : List MkvPart) (name : Option Bytes),
    attachments name (a ++ b) = attachments name a ++ attachments (lastName name a) b ∧
      lastName name (a ++ b) = lastName (lastName name a) b
  | [], name => ⟨rfl, rfl⟩
  | .enter id size :: a, name => by
    obtain ⟨h1, h2⟩ := attachments_append b a name
    exact ⟨by simpa [attachments, lastName] using h1, by simpa [lastName] using h2⟩
  | .block c :: a, name => by
    obtain ⟨h1, h2⟩ := attachments_append b a name
    exact ⟨by simpa [attachments, lastName] using h1, by simpa [lastName] using h2⟩
  | .leaf id size data :: a, name => by
    obtain ⟨h1, h2⟩ := attachments_append b a name
    obtain ⟨h3, h4⟩ := attachments_append b a (some data)
    rw [List.cons_append, attachments, attachments, lastName, lastName]
    by_cases e : id = fileNameId
    · simp only [if_pos e]
      exact ⟨h3, h4⟩
    · simp only [if_neg e]
      refine ⟨?_, h2⟩
      split
      · rw [h1]; rfl
      · exact h1

theorem noFile_plain {id size data : Bytes} (h : id ∉ specialIds) : NoFile (.leaf id size data) := by
  intro sz d
  constructor
  · intro e
    rw [MkvPart.leaf.injEq] at e
    rw [e.1] at h
    exact absurd h (by decide)
  · intro e
    rw [MkvPart.leaf.injEq] at e
    rw [e.1] at h
    exact absurd h (by decide)

theorem noFile_cluster {t : MkvTop} (h : IsCluster t) : ∀ p ∈ t.fine, NoFile p := by
  obtain ⟨size, inner, rfl, hin⟩ := h
  intro p hp
  rcases List.mem_cons.1 hp with rfl | hp
  · intro _ _; simp
  · rcases hin p hp with ⟨sz, rfl⟩ | ⟨id, sz, data, rfl, hid⟩ | ⟨b, rfl⟩
    · intro _ _; simp
    · exact noFile_plain hid
    · intro _ _; simp

theorem plain_calm {id size data : Bytes} (h : id ∉ specialIds) : (∀ s, stripStep s (.leaf id size data) = s) ∧
    id ∉ [trackNumberId, codecId, compressionId, compAlgoId, compSettingsId] := by
  have aux : ∀ l : List Bytes, (∀ x ∈ l, x ∈ specialIds) → id ∉ l := fun l hl hm => h (hl _ hm)
  exact ⟨fun s => stripStep_other s (aux _ (by decide)), aux _ (by decide)⟩

theorem cluster_calm {t : MkvTop} (h : IsCluster t) {p : MkvPart} (hp : p ∈ t.fine) (hok : p.Ok) : (∀ s, stripStep s p = s) ∧
    p.id ∉ [trackNumberId, codecId, compressionId, compAlgoId, compSettingsId] := by
  obtain ⟨size, inner, rfl, hin⟩ := h
  rcases List.mem_cons.1 hp with rfl | hp
  · exact ⟨fun _ => rfl, by show clusterId ∉ _; decide⟩
  · rcases hin p hp with ⟨sz, rfl⟩ | ⟨id, sz, data, rfl, hid⟩ | ⟨b, rfl⟩
    · exact ⟨fun _ => rfl, by show blockGroupId ∉ _; decide⟩
    · exact plain_calm hid
    · refine ⟨fun _ => rfl, ?_⟩
      have h1 : ∀ x ∈ blockIds, x ∉ [trackNumberId, codecId, compressionId, compAlgoId, compSettingsId] := by decide
      exact h1 _ (show b.Ok from hok).id

theorem plainMovie_tops {lead info media : List MkvTop} {seg : Bytes} (h : PlainMovie lead seg info media) :
    MovieTops (lead ++ .part (.enter segmentId seg) :: (info ++ media))
      (strippedHeader (mkvFine (lead ++ .part (.enter segmentId seg) :: (info ++ media)))) := by
  have hok := h.ok
  have hfine : mkvFine (lead ++ .part (.enter segmentId seg) :: (info ++ media)) =
      (mkvFine lead ++ [.enter segmentId seg]) ++ (mkvFine info ++ mkvFine media) := by
    rw [mkvFine_append, mkvFine_cons, mkvFine_append]; simp [MkvTop.fine]
  have hfirst : ∀ p ∈ mkvFine lead ++ [.enter segmentId seg], (∀ s, stripStep s p = s) ∧
      p.id ∉ [trackNumberId, codecId, compressionId, compAlgoId, compSettingsId] ∧ ∀ b, p ≠ .block b := by
    intro p hp
    rcases List.mem_append.1 hp with hp | hp
    · obtain ⟨t, ht, hp⟩ := List.mem_flatMap.1 hp
      obtain ⟨id, size, data, rfl, hid⟩ := h.leads t ht
      rw [List.mem_singleton.1 hp]
      exact ⟨(plain_calm hid).1, (plain_calm (size := size) (data := data) hid).2, by simp⟩
    · rw [List.mem_singleton.1 hp]
      exact ⟨fun _ => rfl, by show segmentId ∉ _; decide, by simp⟩
  have hmedia : ∀ p ∈ mkvFine media, (∀ s, stripStep s p = s) ∧ p.id ∉ [trackNumberId, codecId, compressionId, compAlgoId, compSettingsId] := by
    intro p hp
    have hpo : p.Ok := hok p (by rw [hfine]; simp [hp])
    obtain ⟨t, ht, hp⟩ := List.mem_flatMap.1 hp
    rcases h.medias t ht with ⟨id, size, data, rfl, hid⟩ | ht
    · rw [List.mem_singleton.1 hp]
      exact plain_calm hid
    · exact cluster_calm ht hp hpo
  have hinfo : ∀ p ∈ mkvFine info, ∀ b, p ≠ .block b := by
    intro p hp b
    obtain ⟨t, ht, hp⟩ := List.mem_flatMap.1 hp
    rcases h.infos t ht with ⟨id, size, data, rfl, hid⟩ | ⟨size, inner, rfl, hin⟩ | ⟨size, inner, rfl, hin⟩
    · rw [List.mem_singleton.1 hp]; simp
    · rcases List.mem_cons.1 hp with rfl | hp
      · simp
      · rcases hin p hp with ⟨_, _, rfl, _⟩ | ⟨_, _, _, rfl, _⟩ <;> simp
    · rcases List.mem_cons.1 hp with rfl | hp
      · simp
      · rcases hin p hp with ⟨_, rfl⟩ | ⟨_, _, _, rfl, _⟩ <;> simp
  have hfiles : ∀ p ∈ mkvFine lead ++ [MkvPart.enter segmentId seg], NoFile p := by
    intro p hp
    rcases List.mem_append.1 hp with hp | hp
    · obtain ⟨t, ht, hp⟩ := List.mem_flatMap.1 hp
      obtain ⟨id, size, data, rfl, hid⟩ := h.leads t ht
      rw [List.mem_singleton.1 hp]
      exact noFile_plain hid
    · rw [List.mem_singleton.1 hp]
      intro _ _; simp
  have hfilem : ∀ p ∈ mkvFine media, NoFile p := by
    intro p hp
    obtain ⟨t, ht, hp⟩ := List.mem_flatMap.1 hp
    rcases h.medias t ht with ⟨id, size, data, rfl, hid⟩ | ht
    · rw [List.mem_singleton.1 hp]
      exact noFile_plain hid
    · exact noFile_cluster ht p hp
  have hlast : lastName none (mkvFine lead ++ [MkvPart.enter segmentId seg]) = none := by
    have aux : ∀ a : List MkvPart, (∀ p ∈ a, NoFile p) → lastName none a = none := by
      intro a
      induction a with
      | nil => intro _; rfl
      | cons p a ih =>
        intro h
        have h2 := ih fun q hq => h q (by simp [hq])
        cases p with
        | enter => exact h2
        | leaf id size data =>
          rw [lastName, if_neg (by rintro rfl; exact (h _ (by simp) size data).1 rfl)]
          exact h2
        | block b => exact h2
    exact aux _ hfiles
  have hatt : attachments none (mkvFine (lead ++ .part (.enter segmentId seg) :: (info ++ media))) = attachments none (mkvFine info) := by
    rw [hfine, (attachments_append _ _ _).1, attachments_none hfiles, hlast, List.nil_append, (attachments_append _ _ _).1,
      attachments_none hfilem, List.append_nil]
  constructor
  · intro t ht
    have h1 : ∀ p ∈ t.fine, p.Ok := fun p hp => hok p (List.mem_flatMap.2 ⟨t, ht, hp⟩)
    refine ⟨?_, h1⟩
    cases t with
    | part p => exact h1 p (by simp [MkvTop.fine])
    | master id size inner =>
      have h2 := h1 (.enter id size) (by simp [MkvTop.fine])
      refine ⟨h2.1, h2.2.1, h.inner id size inner ?_⟩
      rcases List.mem_append.1 ht with ht | ht
      · obtain ⟨_, _, _, e, _⟩ := h.leads _ ht
        simp at e
      · rcases List.mem_cons.1 ht with ht | ht
        · simp at ht
        · exact ht
  · intro t ht
    rcases List.mem_append.1 ht with ht | ht
    · exact Or.inl (h.leads t ht)
    · rcases List.mem_cons.1 ht with rfl | ht
      · exact Or.inr (Or.inl ⟨seg, rfl⟩)
      · rcases List.mem_append.1 ht with ht | ht
        · rcases h.infos t ht with h1 | h1 | h1
          · exact Or.inl h1
          · exact Or.inr (Or.inr (Or.inl h1))
          · exact Or.inr (Or.inr (Or.inr (Or.inl h1)))
        · rcases h.medias t ht with h1 | h1
          · exact Or.inl h1
          · exact Or.inr (Or.inr (Or.inr (Or.inr h1)))
  · intro a p b e hp
    rw [hfine] at e
    have hsub : ∀ x ∈ [compressionId, codecId, compAlgoId, compSettingsId], x ∈ [trackNumberId, codecId, compressionId, compAlgoId, compSettingsId] := by decide
    rcases cut_append e with ⟨b', e, _⟩ | ⟨a', rfl, e2⟩
    · exact absurd (hsub _ hp) (hfirst p (by rw [e]; simp)).2.1
    · rcases cut_append e2 with ⟨b', e, _⟩ | ⟨a'', rfl, e3⟩
      · obtain ⟨sz, d, hm⟩ := h.number a' p b' e hp
        exact ⟨sz, d, by simp [hm]⟩
      · exact absurd (hsub _ hp) (hmedia p (by rw [e3]; simp)).2
  · intro a b c e
    rw [hfine] at e
    rcases cut_append e with ⟨b', e, _⟩ | ⟨a', rfl, e2⟩
    · exact absurd rfl ((hfirst (.block b) (by rw [e]; simp)).2.2 b)
    · rcases cut_append e2 with ⟨b', e, _⟩ | ⟨a'', rfl, e3⟩
      · exact absurd rfl (hinfo (.block b) (by rw [e]; simp) b)
      · obtain ⟨sz, d, hm, hd⟩ := h.described b (by rw [e3]; simp)
        refine ⟨⟨sz, d, by simp [hm], hd⟩, ?_⟩
        unfold strippedHeader
        rw [hfine, List.foldl_append, List.foldl_append, strip_none fun p hp => (hfirst p hp).1, List.foldl_append,
          strip_none (a := a'') fun p hp => (hmedia p (by rw [e3]; simp [hp])).1, List.foldl_append,
          strip_none (a := mkvFine media) fun p hp => (hmedia p hp).1,
          strip_none (a := mkvFine lead ++ [MkvPart.enter segmentId seg]) fun p hp => (hfirst p hp).1]
  · intro a b c e
    rw [hatt]
    rw [hfine] at e
    rcases cut_append e with ⟨b', e, _⟩ | ⟨a', rfl, e2⟩
    · exact absurd rfl ((hfirst (.block b) (by rw [e]; simp)).2.2 b)
    · rcases cut_append e2 with ⟨b', e, _⟩ | ⟨a'', rfl, e3⟩
      · exact absurd rfl (hinfo (.block b) (by rw [e]; simp) b)
      · rw [(attachments_append _ _ _).1, attachments_none hfiles, hlast, List.nil_append, (attachments_append _ _ _).1,
          attachments_none (a := a'') fun p hp => hfilem p (by rw [e3]; simp [hp]), List.append_nil]
  · rw [hatt]
    exact h.names

end Rescene
