import Verif.Spec.SortSets
import Verif.Props.SrrSort
/-
C93: the option -m of srr_sort.py.
-/
namespace Rescene.Props
open Rescene Rescene.Spec

theorem wordCi_some {ci : Nat → Nat → Bool} : ∀ {w s r : Str}, wordCi ci w s = some r →
    ∃ x, s = x ++ r ∧ x.length = w.length ∧ ∀ i (h : i < x.length) (h2 : i < w.length), ci w[i] x[i] = true := by
  intro w
  induction w with
  | nil =>
    intro s r h
    cases h
    exact ⟨[], rfl, rfl, fun i h => absurd h (by simp)⟩
  | cons p w ih =>
    intro s r h
    cases s with
    | nil => cases h
    | cons c s =>
      unfold wordCi at h
      split at h
      · rename_i hc
        obtain ⟨x, rfl, hl, hx⟩ := ih h
        refine ⟨c :: x, rfl, by simp [hl], ?_⟩
        intro i h1 h2
        cases i with
        | zero => exact hc
        | succ i => exact hx i (by simpa using h1) (by simpa using h2)
      · cases h

theorem wordCi_word {ci : Nat → Nat → Bool} (hci : PlainCase ci) : ∀ {w s r : Str}, (∀ p ∈ w, 0x61 ≤ p ∧ p ≤ 0x7A) →
    (∀ c ∈ s, c < 128) → s.map smallLetter = w → wordCi ci w (s ++ r) = some r := by
  intro w
  induction w with
  | nil =>
    intro s r _ _ h
    cases s with
    | nil => rfl
    | cons c s => cases h
  | cons p w ih =>
    intro s r hp hs h
    cases s with
    | nil => cases h
    | cons c s =>
      rw [List.map_cons] at h
      obtain ⟨h1, h2⟩ := List.cons.inj h
      have hc : ci p c = true := (hci p c (hp p (by simp)).1 (hp p (by simp)).2 (hs c (by simp))).2 h1
      rw [List.cons_append, wordCi, if_pos hc]
      exact ih (fun q hq => hp q (by simp [hq])) (fun q hq => hs q (by simp [hq])) h2

/-- What a tail of the pattern looks like on ASCII text that does not end a line. -/
theorem wordCi_ascii {ci : Nat → Nat → Bool} (hci : PlainCase ci) : ∀ {w s r : Str}, (∀ p ∈ w, 0x61 ≤ p ∧ p ≤ 0x7A) →
    (∀ c ∈ s, c < 128) → wordCi ci w s = some r → ∃ x, s = x ++ r ∧ (∀ c ∈ x, c < 128) ∧ x.map smallLetter = w := by
  intro w
  induction w with
  | nil =>
    intro s r _ hs h
    cases h
    exact ⟨[], rfl, by simp, rfl⟩
  | cons p w ih =>
    intro s r hp hs h
    cases s with
    | nil => cases h
    | cons c s =>
      unfold wordCi at h
      split at h
      · rename_i hc
        obtain ⟨x, rfl, h1, h2⟩ := ih (fun q hq => hp q (by simp [hq])) (fun q hq => hs q (by simp [hq])) h
        refine ⟨c :: x, rfl, ?_, ?_⟩
        · intro q hq
          rcases List.mem_cons.1 hq with rfl | hq
          · exact hs q (by simp)
          · exact h1 q hq
        · rw [List.map_cons, h2, (hci p c (hp p (by simp)).1 (hp p (by simp)).2 (hs c (by simp))).1 hc]
      · cases h

theorem rar_letters : ∀ p ∈ str "rar", 0x61 ≤ p ∧ p ≤ 0x7A := by decide
theorem part_letters : ∀ p ∈ str "part", 0x61 ≤ p ∧ p ≤ 0x7A := by decide
theorem old_letters : ∀ p ∈ str "rstuv", 0x61 ≤ p ∧ p ≤ 0x7A := by decide

/-- Text of which no character ends a line. -/
def OneLine (s : Str) : Prop := ∀ c ∈ s, c < 128 ∧ c ≠ 0x0A

theorem atEol_one {s : Str} (h : OneLine s) : atEol s = true ↔ s = [] := by
  cases s with
  | nil => simp [atEol]
  | cons c s =>
    have := (h c (by simp)).2
    simp [atEol, this]

theorem rarTail_iff {ci : Nat → Nat → Bool} (hci : PlainCase ci) {s : Str} (h : OneLine s) :
    rarTail ci s = true ↔ ∃ c e, s = c :: e ∧ CaseWord "rar" e := by
  cases s with
  | nil => simp [rarTail]
  | cons c s =>
    have hc : notEol c = true := by simp [notEol, (h c (by simp)).2]
    have hs : ∀ q ∈ s, q < 128 := fun q hq => (h q (by simp [hq])).1
    simp only [rarTail, hc, Bool.true_and]
    constructor
    · intro ht
      split at ht
      · rename_i r hr
        obtain ⟨x, rfl, h1, h2⟩ := wordCi_ascii hci rar_letters hs hr
        have : r = [] := (atEol_one (fun q hq => h q (by simp [hq]))).1 ht
        subst this
        exact ⟨c, x, by simp, h1, h2⟩
      · cases ht
    · rintro ⟨c', e, heq, h1, h2⟩
      cases heq
      have := wordCi_word hci (r := []) rar_letters h1 h2
      rw [List.append_nil] at this
      rw [this]
      rfl

theorem numberTail_iff {dig : Nat → Bool} {ci : Nat → Nat → Bool} (hd : PlainDigits dig) (hci : PlainCase ci) : ∀ {s : Str}, OneLine s →
    (numberTail dig ci s = true ↔ ∃ ds c e, s = ds ++ c :: e ∧ ds ≠ [] ∧ AsciiDigits ds ∧ CaseWord "rar" e) := by
  intro s
  induction s with
  | nil => simp [numberTail]
  | cons c s ih =>
    intro h
    have hs : OneLine s := fun q hq => h q (by simp [hq])
    rw [numberTail, Bool.and_eq_true, Bool.or_eq_true, ih hs, rarTail_iff hci hs, hd c (h c (by simp)).1]
    constructor
    · rintro ⟨hc, ⟨c2, e, rfl, he⟩ | ⟨ds, c2, e, rfl, hne, hds, he⟩⟩
      · refine ⟨[c], c2, e, rfl, by simp, ?_, he⟩
        intro q hq
        rw [List.mem_singleton] at hq
        exact hq ▸ hc
      · refine ⟨c :: ds, c2, e, rfl, by simp, ?_, he⟩
        intro q hq
        rcases List.mem_cons.1 hq with rfl | hq
        · exact hc
        · exact hds q hq
    · rintro ⟨ds, c2, e, heq, hne, hds, he⟩
      cases ds with
      | nil => exact absurd rfl hne
      | cons d ds =>
        rw [List.cons_append] at heq
        obtain ⟨rfl, rfl⟩ := List.cons.inj heq
        refine ⟨hds c (by simp), ?_⟩
        cases ds with
        | nil => exact Or.inl ⟨c2, e, rfl, he⟩
        | cons d2 ds => exact Or.inr ⟨d2 :: ds, c2, e, rfl, by simp, fun q hq => hds q (by simp [hq]), he⟩

theorem partTail_iff {dig : Nat → Bool} {ci : Nat → Nat → Bool} (hd : PlainDigits dig) (hci : PlainCase ci) {s : Str} (h : OneLine s) :
    partTail dig ci s = true ↔ ∃ c w ds c2 e, s = c :: (w ++ (ds ++ c2 :: e)) ∧ CaseWord "part" w ∧ ds ≠ [] ∧ AsciiDigits ds ∧ CaseWord "rar" e := by
  cases s with
  | nil => simp [partTail]
  | cons c s =>
    have hc : notEol c = true := by simp [notEol, (h c (by simp)).2]
    have hs : ∀ q ∈ s, q < 128 := fun q hq => (h q (by simp [hq])).1
    simp only [partTail, hc, Bool.true_and]
    constructor
    · intro ht
      split at ht
      · rename_i r hr
        obtain ⟨x, rfl, h1, h2⟩ := wordCi_ascii hci part_letters hs hr
        obtain ⟨ds, c2, e, rfl, h3, h4, h5⟩ := (numberTail_iff hd hci (fun q hq => h q (by simp [hq]))).1 ht
        exact ⟨c, x, ds, c2, e, rfl, ⟨h1, h2⟩, h3, h4, h5⟩
      · cases ht
    · rintro ⟨c', w, ds, c2, e, heq, ⟨h1, h2⟩, h3, h4, h5⟩
      cases heq
      rw [wordCi_word hci part_letters h1 h2]
      exact (numberTail_iff hd hci (fun q hq => h q (List.mem_cons_of_mem _ (List.mem_append_right _ hq)))).2 ⟨ds, c2, e, rfl, h3, h4, h5⟩

theorem oldTail_iff {dig : Nat → Bool} {ci : Nat → Nat → Bool} (hd : PlainDigits dig) (hci : PlainCase ci) {s : Str} (h : OneLine s) :
    oldTail dig ci s = true ↔ ∃ c l d e, s = [c, l, d, e] ∧ smallLetter l ∈ str "rstuv" ∧ AsciiDigits [d, e] := by
  match s, h with
  | [], _ => simp [oldTail]
  | [_], _ => simp [oldTail]
  | [_, _], _ => simp [oldTail]
  | [_, _, _], _ => simp [oldTail]
  | c :: l :: d :: e :: r, h =>
    have hc : notEol c = true := by simp [notEol, (h c (by simp)).2]
    have hr : OneLine r := fun q hq => h q (by simp [hq])
    rw [oldTail, hc, Bool.true_and, Bool.and_eq_true, Bool.and_eq_true, Bool.and_eq_true, atEol_one hr, hd d (h d (by simp)).1,
      hd e (h e (by simp)).1, List.any_eq_true]
    constructor
    · rintro ⟨⟨⟨⟨p, hp, hpl⟩, h1⟩, h2⟩, rfl⟩
      refine ⟨c, l, d, e, rfl, ?_, ?_⟩
      · rw [(hci p l (old_letters p hp).1 (old_letters p hp).2 (h l (by simp)).1).1 hpl]
        exact hp
      · intro q hq
        simp only [List.mem_cons, List.not_mem_nil, or_false] at hq
        rcases hq with rfl | rfl
        · exact h1
        · exact h2
    · rintro ⟨c', l', d', e', heq, h1, h2⟩
      cases heq
      exact ⟨⟨⟨⟨smallLetter l, h1, (hci _ l (old_letters _ h1).1 (old_letters _ h1).2 (h l (by simp)).1).2 rfl⟩, h2 d (by simp)⟩, h2 e (by simp)⟩, rfl⟩

theorem word_length {w : String} {s : Str} (h : CaseWord w s) : s.length = (str w).length := by
  rw [← h.2, List.length_map]

theorem word_one {w : String} {s : Str} (h : CaseWord w s) (hw : ∀ c ∈ str w, c ≠ 0x0A) : OneLine s := by
  intro c hc
  refine ⟨h.1 c hc, ?_⟩
  rintro rfl
  have : smallLetter 0x0A ∈ str w := h.2 ▸ List.mem_map_of_mem hc
  exact hw _ this rfl

/-- The first match is behind all prefixes that do not match. -/
theorem base_at {dig : Nat → Bool} {ci : Nat → Nat → Bool} : ∀ {b t : Str}, OneLine b → t ≠ [] → setTail dig ci t = true →
    (∀ b1 b2, b = b1 ++ b2 → b2 ≠ [] → setTail dig ci (b2 ++ t) = false) → setBase dig ci (b ++ t) = some b := by
  intro b
  induction b with
  | nil =>
    intro t _ hne ht _
    cases t with
    | nil => exact absurd rfl hne
    | cons c t => rw [List.nil_append, setBase, if_pos ht]
  | cons c b ih =>
    intro t hb hne ht hno
    have h1 : setTail dig ci (c :: (b ++ t)) = false := hno [] (c :: b) rfl (by simp)
    have h2 : notEol c = true := by simp [notEol, (hb c (by simp)).2]
    rw [List.cons_append, setBase, if_neg (by simp [h1]), if_pos h2, ih (fun q hq => hb q (by simp [hq])) hne ht
      (fun b1 b2 hbb hb2 => hno (c :: b1) b2 (by rw [hbb]; rfl) hb2)]
    rfl

theorem tail_iff {dig : Nat → Bool} {ci : Nat → Nat → Bool} (hd : PlainDigits dig) (hci : PlainCase ci) {s : Str} (h : OneLine s) :
    setTail dig ci s = true ↔
      (∃ c w ds c2 e, s = c :: (w ++ (ds ++ c2 :: e)) ∧ CaseWord "part" w ∧ ds ≠ [] ∧ AsciiDigits ds ∧ CaseWord "rar" e) ∨
      (∃ c l d e, s = [c, l, d, e] ∧ smallLetter l ∈ str "rstuv" ∧ AsciiDigits [d, e]) ∨ ∃ c e, s = c :: e ∧ CaseWord "rar" e := by
  unfold setTail
  rw [Bool.or_eq_true, Bool.or_eq_true, partTail_iff hd hci h, oldTail_iff hd hci h, rarTail_iff hci h, or_assoc]

theorem ends_eq {a b c d : Str} (h : a ++ b = c ++ d) (hl : b.length = d.length) : a = c ∧ b = d :=
  List.append_inj' h hl

/-- A word of four letters has no dot and no digit. -/
theorem part_mem {w : Str} (h : CaseWord "part" w) {c : Nat} (hc : c ∈ w) : c ≠ 0x2E := by
  rintro rfl
  have : smallLetter 0x2E ∈ str "part" := h.2 ▸ List.mem_map_of_mem hc
  revert this
  decide

/-- C93: the part of the name of a volume that says which archive it is of. -/
theorem base_of {dig : Nat → Bool} {ci : Nat → Nat → Bool} (hd : PlainDigits dig) (hci : PlainCase ci) {b f : Str} (h : SetVolume b f) :
    setBase dig ci f = some b := by
  obtain ⟨hb, h⟩ := h
  have hdot : str "." = [0x2E] := by decide
  have hrar : (str "rar").length = 3 := by decide
  have hpart : (str "part").length = 4 := by decide
  have hrarEol : ∀ c ∈ str "rar", c ≠ 0x0A := by decide
  have hpartEol : ∀ c ∈ str "part", c ≠ 0x0A := by decide
  have sub : ∀ {b1 b2 : Str}, b = b1 ++ b2 → OneLine b2 := fun hbb q hq => hb q (by rw [hbb]; simp [hq])
  have app : ∀ {x y : Str}, OneLine x → OneLine y → OneLine (x ++ y) := by
    intro x y hx hy q hq
    rcases List.mem_append.1 hq with h | h
    · exact hx q h
    · exact hy q h
  have dgl : ∀ {x : Str}, AsciiDigits x → OneLine x := by
    intro x hx q hq
    have := hx q hq
    omega
  have dotl : OneLine [0x2E] := by
    intro q hq
    rw [List.mem_singleton] at hq
    subst hq
    decide
  rcases h with ⟨w, ds, e, rfl, hw, hne, hds, he⟩ | ⟨l, d, e, rfl, hl, hlet, hds⟩ | ⟨e, rfl, he, hno⟩
  · have el := word_length he
    have wl := word_length hw
    rw [hdot]
    have hshape : b ++ [0x2E] ++ w ++ ds ++ [0x2E] ++ e = b ++ (0x2E :: (w ++ (ds ++ 0x2E :: e))) := by simp
    have hline : OneLine (0x2E :: (w ++ (ds ++ 0x2E :: e))) :=
      app dotl (app (word_one hw hpartEol) (app (dgl hds) (app dotl (word_one he hrarEol))))
    rw [hshape]
    refine base_at hb (by simp) ((tail_iff hd hci hline).2 (Or.inl ⟨_, w, ds, _, e, rfl, hw, hne, hds, he⟩)) ?_
    intro b1 b2 hbb hb2
    cases ht : setTail dig ci (b2 ++ 0x2E :: (w ++ (ds ++ 0x2E :: e))) with
    | false => rfl
    | true =>
      exfalso
      rcases (tail_iff hd hci (app (sub hbb) hline)).1 ht with ⟨c, w', ds', c2, e', heq, hw', _, hds', he'⟩ | ⟨c, l, d, e', heq, _⟩ | ⟨c, e', heq, he'⟩
      · have el' := word_length he'
        have wl' := word_length hw'
        have h1 : (b2 ++ 0x2E :: (w ++ ds)) ++ (0x2E :: e) = (c :: (w' ++ ds')) ++ (c2 :: e') := by simpa using heq
        have h2 := (ends_eq h1 (by simp [el, el'])).1
        obtain ⟨c0, b3, rfl⟩ : ∃ c0 b3, b2 = c0 :: b3 := by
          cases b2 with
          | nil => exact absurd rfl hb2
          | cons c0 b3 => exact ⟨c0, b3, rfl⟩
        have h3 := (List.cons.inj h2).2
        have hm : (0x2E : Nat) ∈ w' ++ ds' := by
          rw [← h3]
          simp
        rcases List.mem_append.1 hm with hm | hm
        · exact part_mem hw' hm rfl
        · have := hds' _ hm
          omega
      · have := congrArg List.length heq
        simp at this
        omega
      · have := congrArg List.length heq
        have el' := word_length he'
        simp at this
        omega
  · rw [hdot]
    have hline : OneLine [0x2E, l, d, e] := by
      refine app dotl (app (x := [l]) ?_ (dgl hds))
      intro q hq
      rw [List.mem_singleton] at hq
      subst hq
      refine ⟨hl, ?_⟩
      rintro rfl
      revert hlet
      decide
    rw [List.append_assoc]
    refine base_at hb (by simp) ((tail_iff hd hci hline).2 (Or.inr (Or.inl ⟨_, l, d, e, rfl, hlet, hds⟩))) ?_
    intro b1 b2 hbb hb2
    cases ht : setTail dig ci (b2 ++ ([0x2E] ++ [l, d, e])) with
    | false => rfl
    | true =>
      exfalso
      have hlast : ∀ {e' x : Str}, CaseWord "rar" e' → b2 ++ ([0x2E] ++ [l, d, e]) = x ++ e' → False := by
        intro e' x he' heq
        have el' := word_length he'
        have h1 : (b2 ++ [0x2E]) ++ [l, d, e] = x ++ e' := by simpa using heq
        have h2 := (ends_eq h1 (by simp [el', hrar])).2
        subst h2
        have h3 := he'.2
        have h4 : smallLetter d = 0x61 := by
          have hr : str "rar" = [0x72, 0x61, 0x72] := by decide
          rw [hr] at h3
          have : [smallLetter l, smallLetter d, smallLetter e] = [0x72, 0x61, 0x72] := h3
          simp at this
          exact this.2.1
        have h5 := hds d (by simp)
        unfold smallLetter at h4
        split at h4 <;> omega
      rcases (tail_iff hd hci (app (sub hbb) hline)).1 ht with ⟨c, w', ds', c2, e', heq, _, _, _, he'⟩ | ⟨c, l', d', e', heq, _⟩ | ⟨c, e', heq, he'⟩
      · exact hlast (x := c :: (w' ++ (ds' ++ [c2]))) he' (by simpa using heq)
      · have := congrArg List.length heq
        simp at this
        exact hb2 this
      · exact hlast (x := [c]) he' (by simpa using heq)
  · have el := word_length he
    rw [hdot, List.append_assoc]
    have hline : OneLine ([0x2E] ++ e) := app dotl (word_one he hrarEol)
    refine base_at hb (by simp) ((tail_iff hd hci hline).2 (Or.inr (Or.inr ⟨_, e, rfl, he⟩))) ?_
    intro b1 b2 hbb hb2
    cases ht : setTail dig ci (b2 ++ ([0x2E] ++ e)) with
    | false => rfl
    | true =>
      exfalso
      rcases (tail_iff hd hci (app (sub hbb) hline)).1 ht with ⟨c, w', ds', c2, e', heq, hw', hne', hds', he'⟩ | ⟨c, l', d', e', heq, _⟩ | ⟨c, e', heq, he'⟩
      · have el' := word_length he'
        have h1 : b2 ++ ([0x2E] ++ e) = (c :: (w' ++ ds')) ++ (c2 :: e') := by simpa using heq
        have h2 := (ends_eq h1 (by simp [el, el'])).1
        refine hno ⟨b1 ++ [c], w', ds', ?_, by simp, hw', hne', hds'⟩
        rw [hbb, h2]
        simp
      · have := congrArg List.length heq
        simp [el, hrar] at this
        exact hb2 this
      · have := congrArg List.length heq
        have el' := word_length he'
        simp [el, el', hrar] at this
        exact hb2 this

theorem sets_loop {dig : Nat → Bool} {ci : Nat → Nat → Bool} (hd : PlainDigits dig) (hci : PlainCase ci) : ∀ {l sets : List Str},
    sets.Nodup → (∀ f ∈ l, ∃ b, SetVolume b f) →
    ∃ r, setsLoop dig ci sets l = .ok r ∧ r.Nodup ∧ ∀ b, b ∈ r ↔ b ∈ sets ∨ ∃ f ∈ l, SetVolume b f := by
  intro l
  induction l with
  | nil =>
    intro sets hs _
    exact ⟨sets, rfl, hs, by simp⟩
  | cons f l ih =>
    intro sets hs hl
    obtain ⟨b, hb⟩ := hl f (by simp)
    have hbase := base_of hd hci hb
    have hs2 : (if sets.contains b then sets else sets ++ [b]).Nodup := by
      split
      · exact hs
      · rename_i hc
        rw [List.nodup_append]
        refine ⟨hs, by simp, ?_⟩
        intro x hx y hy
        rw [List.mem_singleton] at hy
        subst hy
        rintro rfl
        exact hc (List.elem_eq_true_of_mem hx)
    obtain ⟨r, h1, h2, h3⟩ := ih hs2 (fun g hg => hl g (by simp [hg]))
    refine ⟨r, ?_, h2, ?_⟩
    · rw [setsLoop, hbase]
      exact h1
    · intro b'
      have hin : b' ∈ (if sets.contains b then sets else sets ++ [b]) ↔ b' ∈ sets ∨ b' = b := by
        split
        · rename_i hc
          constructor
          · exact Or.inl
          · rintro (h | rfl)
            · exact h
            · exact List.mem_of_elem_eq_true hc
        · rw [List.mem_append, List.mem_singleton]
      rw [h3, hin, or_assoc]
      refine or_congr Iff.rfl ?_
      constructor
      · rintro (rfl | ⟨g, hg, h⟩)
        · exact ⟨f, by simp, hb⟩
        · exact ⟨g, by simp [hg], h⟩
      · rintro ⟨g, hg, h⟩
        rcases List.mem_cons.1 hg with rfl | hg
        · exact Or.inl (Option.some.inj ((base_of hd hci h).symm.trans hbase))
        · exact Or.inr ⟨g, hg, h⟩

/-- C93: with -m an SRR is listed exactly when there are more archived files than archives, when the volumes are named like volumes. -/
theorem multiple_iff_partial {dig : Nat → Bool} {ci : Nat → Nat → Bool} {lower upper : Str → Str} {data : Bytes} {i : Info} (hd : PlainDigits dig)
    (hci : PlainCase ci) (hi : info lower upper data = .ok i) (hv : ∀ f ∈ i.rars.map (·.1), ∃ b, SetVolume b f) :
    ∃ (r : Bool) (sets : List Str), checkMultiple dig ci lower upper data = .ok r ∧ sets.Nodup ∧
      (∀ b, b ∈ sets ↔ ∃ f ∈ i.rars.map (·.1), SetVolume b f) ∧ (r = true ↔ sets.length < i.archived.length) := by
  obtain ⟨sets, h1, h2, h3⟩ := sets_loop hd hci (l := i.rars.map (·.1)) (sets := []) List.nodup_nil hv
  refine ⟨decide (i.archived.length > sets.length), sets, ?_, h2, ?_, by simp⟩
  · unfold checkMultiple
    rw [hi, ok_bind, h1]
    rfl
  · intro b
    rw [h3]
    simp

/-- C93: with -m and other options an SRR is listed when there are more archived files than archives, or for one of the other options. -/
theorem multiple_listed_partial {dig : Nat → Bool} {ci : Nat → Nat → Bool} {lower upper : Str → Str} {data : Bytes} {i : Info} (hd : PlainDigits dig)
    (hci : PlainCase ci) (hi : info lower upper data = .ok i) (hv : ∀ f ∈ i.rars.map (·.1), ∃ b, SetVolume b f) {o : SortOpts} {p : Path} {b : Bool}
    (hb : sortMatch lower upper o p data = .ok b) :
    ∃ (r : Bool) (sets : List Str), sortMatchMore dig ci lower upper o true p data = .ok r ∧ sets.Nodup ∧
      (∀ b, b ∈ sets ↔ ∃ f ∈ i.rars.map (·.1), SetVolume b f) ∧ (r = true ↔ sets.length < i.archived.length ∨ b = true) := by
  obtain ⟨r, sets, h1, h2, h3, h4⟩ := multiple_iff_partial hd hci hi hv
  refine ⟨r || b, sets, ?_, h2, h3, ?_⟩
  · unfold sortMatchMore ifSet
    rw [if_pos rfl, h1, ok_bind, hb]
    rfl
  · rw [Bool.or_eq_true, h4]

/-- C93, disagreement: with -m an SRR is never listed, whatever the other options are, when a volume has a name like `base.001`. -/
theorem multiple_numbers {dig : Nat → Bool} {ci : Nat → Nat → Bool} {lower upper : Str → Str} {data : Bytes} {i : Info} (hd : PlainDigits dig)
    (hci : PlainCase ci) (hi : info lower upper data = .ok i) {b ds : Str} (hb : ∀ c ∈ b, c < 128 ∧ c ≠ 0x0A) (hds : AsciiDigits ds)
    (hl : ds.length = 3) (hv : b ++ ds ∈ i.rars.map (·.1)) (o : SortOpts) (p : Path) : ∃ e, sortMatchMore dig ci lower upper o true p data = .error e := by
  have dgl : OneLine ds := by
    intro q hq
    have := hds q hq
    omega
  have hno : ∀ s, OneLine s → setTail dig ci (s ++ ds) = false := by
    intro s hs
    cases ht : setTail dig ci (s ++ ds) with
    | false => rfl
    | true =>
      exfalso
      have hone : OneLine (s ++ ds) := by
        intro q hq
        rcases List.mem_append.1 hq with h | h
        · exact hs q h
        · exact dgl q h
      have hword : ∀ {e' x : Str}, CaseWord "rar" e' → s ++ ds = x ++ e' → False := by
        intro e' x he' heq
        have el' := word_length he'
        have h2 := (ends_eq heq (by rw [hl, el']; decide)).2
        subst h2
        have h3 : ∀ c ∈ ds, smallLetter c = c := by
          intro c hc
          have := hds c hc
          unfold smallLetter
          split <;> omega
        have h4 : ds = str "rar" := by
          rw [← he'.2, List.map_congr_left h3, List.map_id']
        have h5 : (0x72 : Nat) ∈ ds := by rw [h4]; decide
        have := hds _ h5
        omega
      rcases (tail_iff hd hci hone).1 ht with ⟨c, w', ds', c2, e', heq, _, _, _, he'⟩ | ⟨c, l', d', e', heq, hl', _⟩ | ⟨c, e', heq, he'⟩
      · exact hword (x := c :: (w' ++ (ds' ++ [c2]))) he' (by simpa using heq)
      · have h2 := (ends_eq (a := s) (c := [c]) heq (by rw [hl]; rfl)).2
        have h3 := hds l' (by rw [h2]; simp)
        unfold smallLetter at hl'
        rw [if_neg (by omega)] at hl'
        have := (old_letters _ hl').1
        omega
      · exact hword (x := [c]) he' (by simpa using heq)
  have hnone : ∀ s, OneLine s → setBase dig ci (s ++ ds) = none := by
    intro s
    induction s with
    | nil =>
      intro _
      match ds, hl, hds, hno [] (fun q hq => absurd hq (by simp)) with
      | [x, y, z], _, hds, h0 =>
        have e1 : setTail dig ci [y, z] = false := by simp [setTail, partTail, oldTail, rarTail, wordCi, str]
        have e2 : setTail dig ci [z] = false := by simp [setTail, partTail, oldTail, rarTail, wordCi, str]
        rw [List.nil_append] at h0 ⊢
        simp only [setBase, h0, e1, e2, Bool.false_eq_true, if_false, Option.map_none, ite_self]
    | cons c s ih =>
      intro hs
      have h0 := hno (c :: s) hs
      rw [List.cons_append] at h0 ⊢
      rw [setBase, if_neg (by simp [h0]), ih (fun q hq => hs q (by simp [hq]))]
      simp
  have hloop : ∀ (l sets : List Str), b ++ ds ∈ l → ∃ e, setsLoop dig ci sets l = .error e := by
    intro l
    induction l with
    | nil =>
      intro sets h
      cases h
    | cons f l ih =>
      intro sets h
      rw [setsLoop]
      cases hf : setBase dig ci f with
      | none => exact ⟨_, rfl⟩
      | some x =>
        rcases List.mem_cons.1 h with h | h
        · rw [← h, hnone b hb] at hf
          cases hf
        · exact ih _ h
  obtain ⟨e, he⟩ := hloop _ [] hv
  refine ⟨e, ?_⟩
  unfold sortMatchMore ifSet checkMultiple
  rw [if_pos rfl, hi, ok_bind, he]
  rfl

/-! ### Examples and disagreements -/

set_option maxRecDepth 100000

/-- ASCII digits, and letters that are equal but for their case. -/
def exSortDig (c : Nat) : Bool := decide (0x30 ≤ c) && decide (c ≤ 0x39)
def exSortCi (p c : Nat) : Bool := smallLetter c == p

theorem exSort_plain : PlainDigits exSortDig ∧ PlainCase exSortCi := by
  constructor
  · intro c _
    simp [exSortDig]
  · intro p c _ _ _
    simp [exSortCi]

/-- The blocks of a volume with these archived files. -/
def exSortVolume (name : String) (files : List String) : Bytes :=
  (mkRarFile (str name)).toOption.getD [] ++ [0x52, 0x61, 0x72, 0x21, 0x1A, 0x07, 0x00] ++
    files.flatMap fun f => [0, 0, 0x74, 0, 0x80, 32 + f.length.toUInt8, 0] ++ (List.replicate 18 0 ++ [0x30] ++ [f.length.toUInt8, 0, 0, 0, 0, 0]) ++
      (str f).map Nat.toUInt8

/-- An SRR of these volumes. -/
def exSortSrr (vols : List (String × List String)) : Bytes :=
  (mkSrrHeader (str "pyReScene")).toOption.getD [] ++ vols.flatMap fun v => exSortVolume v.1 v.2

/-- The names of the volumes and of the archived files. -/
def exSortInfo (data : Bytes) : Option (List Str × List Str) :=
  (info lowerStr id data).toOption.map fun i => (i.rars.map (·.1), i.archived.map (·.1))

example : exSortInfo (exSortSrr [("a.rar", ["x", "y"]), ("a.r00", ["y"])]) = some ([str "a.rar", str "a.r00"], [str "x", str "y"]) := by decide +kernel

theorem exSort_volumes : ∀ f ∈ [str "a.rar", str "a.r00", str "b.part1.rar"], ∃ b, SetVolume b f := by
  intro f hf
  simp only [List.mem_cons, List.not_mem_nil, or_false] at hf
  rcases hf with rfl | rfl | rfl
  · refine ⟨str "a", by decide, Or.inr (Or.inr ⟨str "rar", by decide, ⟨by decide, by decide⟩, ?_⟩)⟩
    rintro ⟨x, w, ds, h, hx, hw, hne, _⟩
    have h1 := congrArg List.length h
    have h2 := word_length hw
    have h3 : (str "part").length = 4 := by decide
    have h4 : (str "a").length = 1 := by decide
    simp only [List.length_append] at h1
    omega
  · exact ⟨str "a", by decide, Or.inr (Or.inl ⟨0x72, 0x30, 0x30, by decide, by decide, by decide, by unfold AsciiDigits; decide⟩)⟩
  · exact ⟨str "b", by decide, Or.inl ⟨str "part", str "1", str "rar", by decide, ⟨by decide, by decide⟩, by decide, by unfold AsciiDigits; decide,
      by decide, by decide⟩⟩

example : ∃ i, info lowerStr id (exSortSrr [("a.rar", ["x"]), ("a.r00", ["x"]), ("b.part1.rar", ["y", "z"])]) = .ok i ∧
    i.rars.map (·.1) = [str "a.rar", str "a.r00", str "b.part1.rar"] ∧ i.archived.length = 3 := by
  cases h : info lowerStr id (exSortSrr [("a.rar", ["x"]), ("a.r00", ["x"]), ("b.part1.rar", ["y", "z"])]) with
  | error e =>
    have : exSortInfo (exSortSrr [("a.rar", ["x"]), ("a.r00", ["x"]), ("b.part1.rar", ["y", "z"])]) ≠ none := by decide +kernel
    exact absurd (by rw [exSortInfo, h]; rfl) this
  | ok i =>
    have : exSortInfo (exSortSrr [("a.rar", ["x"]), ("a.r00", ["x"]), ("b.part1.rar", ["y", "z"])]) =
      some ([str "a.rar", str "a.r00", str "b.part1.rar"], [str "x", str "y", str "z"]) := by decide +kernel
    rw [exSortInfo, h] at this
    have h2 := Option.some.inj this
    refine ⟨i, rfl, congrArg Prod.fst h2, ?_⟩
    have h3 := congrArg List.length (congrArg Prod.snd h2)
    simpa using h3

example : checkMultiple exSortDig exSortCi lowerStr id (exSortSrr [("a.rar", ["x"]), ("a.r00", ["x"]), ("b.part1.rar", ["y", "z"])]) = .ok true ∧
    checkMultiple exSortDig exSortCi lowerStr id (exSortSrr [("a.rar", ["x"]), ("a.r00", ["x"]), ("b.part1.rar", ["y"])]) = .ok false := by decide +kernel

/-- C93, disagreement: with -m an SRR with an archive of two files is not listed when another archive has a file of the same name. -/
theorem multiple_unlisted : checkMultiple exSortDig exSortCi lowerStr id (exSortSrr [("a.rar", ["x", "y"]), ("b.rar", ["x"])]) = .ok false ∧
    checkMultiple exSortDig exSortCi lowerStr id (exSortSrr [("a.rar", ["x", "y"]), ("b.rar", [])]) = .ok false := by decide +kernel

example : exSortInfo (exSortSrr [("a.001", ["x", "y"])]) = some ([str "a.001"], [str "x", str "y"]) ∧
    checkMultiple exSortDig exSortCi lowerStr id (exSortSrr [("a.001", ["x", "y"])]) = .error .attrError := by decide +kernel

end Rescene.Props
