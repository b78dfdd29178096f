import Verif.Props.Volumes
/-
C28: recognising RAR names, and picking the first volumes.
-/
namespace Rescene.Props
open Spec

/-- C28: a name (without newline) is a RAR name iff it ends in a dot and one of the
extensions. -/
theorem is_rar_iff (dig : Nat → Bool) (s : Str) (hs : 0x0A ∉ s) :
    isRar dig s = true ↔ ∃ base ext, s = base ++ str "." ++ ext ∧ RarExt dig ext := by
  rw [isRar_iff]
  constructor
  · rintro ⟨base, ext, tail, rfl, _, h, rfl | rfl⟩
    · exact ⟨base, ext, by simp [str], h⟩
    · exfalso; apply hs; simp
  · rintro ⟨base, ext, rfl, h⟩
    exact ⟨base, ext, [], by simp [str], fun h' => hs (by simp [h']), h, Or.inl rfl⟩

/-- C28: a newline after such a name is accepted as well (the pattern ends in `$`). -/
theorem is_rar_newline (dig : Nat → Bool) : isRar dig (str "a.rar\n") = true :=
  (isRar_iff _ _).mpr ⟨str "a", str "rar", [0x0A], rfl, by decide, Or.inl rfl, Or.inr rfl⟩

/-- C28: `is_first`. -/
theorem is_first_iff (dig : Nat → Bool) (s : Str) (hs : 0x0A ∉ s) :
    isFirst dig s = true ↔ FirstName dig s ∨ (∃ b, s = b ++ str ".000") ∨ (∃ b, s = b ++ str ".001") := by
  unfold isFirst endsWith
  rw [Bool.or_eq_true, Bool.or_eq_true, firstRx_iff dig s hs, List.isSuffixOf_iff_suffix, List.isSuffixOf_iff_suffix, or_assoc]
  unfold List.IsSuffix
  constructor
  · rintro (h | ⟨b, h⟩ | ⟨b, h⟩)
    · exact Or.inl h
    · exact Or.inr (Or.inl ⟨b, h.symm⟩)
    · exact Or.inr (Or.inr ⟨b, h.symm⟩)
  · rintro (h | ⟨b, h⟩ | ⟨b, h⟩)
    · exact Or.inl h
    · exact Or.inr (Or.inl ⟨b, h.symm⟩)
    · exact Or.inr (Or.inr ⟨b, h.symm⟩)

theorem firstLoop_sublist (fuel : Nat) : ∀ (i : Nat) (l : List Str), (firstLoop fuel i l).Sublist l := by
  induction fuel with
  | zero => intro i l; exact List.Sublist.refl l
  | succ fuel ih =>
    intro i l
    rw [firstLoop]
    split
    · exact List.Sublist.refl l
    · split
      · exact (ih _ _).trans List.erase_sublist
      · exact ih _ _

/-- C28: only names from the input are returned, in their order, not more often than they
occur there. -/
theorem first_rars_from_input (dig : Nat → Bool) (lower : Str → Str) (files : List Str) :
    (firstRars dig lower files).Sublist files := by
  unfold firstRars
  simp only
  split
  · split
    · exact List.filter_sublist.trans List.filter_sublist
    · split
      · exact List.nil_sublist _
      · exact List.filter_sublist
  · exact (firstLoop_sublist _ _ _).trans List.filter_sublist

theorem firstName_last {dig : Nat → Bool} {s : Str} {c : Nat} (h : FirstName dig (s ++ [c])) : lowerA c = 0x72 := by
  obtain ⟨b, r, he, hr, _⟩ := h
  obtain ⟨r', c', rfl, hc'⟩ := is_snoc (l := str ".ra") (x := 0x72) hr
  have h' : s ++ [c] = (b ++ r') ++ [c'] := by simpa using he
  have := (List.append_inj' h' rfl).2
  simp at this
  rw [this, hc']

theorem firstLoop_keeps (fuel : Nat) : ∀ (i : Nat) (l : List Str) (x : Str), x ∈ l → (¬ ∃ b, x = b ++ str "1") →
    x ∈ firstLoop fuel i l := by
  induction fuel with
  | zero => intro i l x hx _; exact hx
  | succ fuel ih =>
    intro i l x hx hn
    rw [firstLoop]
    split
    · exact hx
    · apply ih _ _ _ _ hn
      split
      · exact (List.mem_erase_of_ne (fun h => hn ⟨_, h⟩)).mpr hx
      · exact hx

/-- C28: if some `.rar` name looks like a first volume, only names that look like first
volumes are returned, and none of the `.rar` ones is left out. -/
theorem first_rars_are_first (dig : Nat → Bool) (lower : Str → Str) (files : List Str)
    (hnl : ∀ f ∈ files, 0x0A ∉ f) (hex : ∃ f ∈ files, FirstName dig f) :
    (∀ f ∈ firstRars dig lower files, FirstName dig f ∨ (∃ b, f = b ++ str ".000") ∨ (∃ b, f = b ++ str ".001")) ∧
    (∀ f ∈ files, FirstName dig f → f ∈ firstRars dig lower files) := by
  have hkeep : ∀ f ∈ files, FirstName dig f →
      f ∈ firstLoop (files.filter (isFirst dig)).length 0 (files.filter (isFirst dig)) := by
    intro f hf hff
    apply firstLoop_keeps
    · exact List.mem_filter.mpr ⟨hf, (is_first_iff dig f (hnl f hf)).mpr (Or.inl hff)⟩
    · rintro ⟨b, rfl⟩
      have := firstName_last hff
      revert this; decide
  obtain ⟨f0, hf0, hff0⟩ := hex
  have hne : firstLoop (files.filter (isFirst dig)).length 0 (files.filter (isFirst dig)) ≠ [] :=
    List.ne_nil_of_mem (hkeep f0 hf0 hff0)
  unfold firstRars
  simp only
  rw [if_neg hne]
  refine ⟨?_, hkeep⟩
  intro f hf
  have := List.mem_filter.mp ((firstLoop_sublist _ _ _).subset hf)
  exact (is_first_iff dig f (hnl f this.1)).mp this.2

/-! ### complete sets of volumes -/

theorem endsWith_iff {s e : Str} : endsWith s e = true ↔ ∃ b, s = b ++ e := by
  unfold endsWith
  rw [List.isSuffixOf_iff_suffix]
  constructor
  · rintro ⟨b, h⟩; exact ⟨b, h.symm⟩
  · rintro ⟨b, h⟩; exact ⟨b, h.symm⟩

theorem oldVol_shape (base : Str) (k : Nat) : ∃ c, oldVol base (k + 1) = base ++ [0x2E] ++ ['r'.toNat + k / 100] ++ digits 1 (k / 10) ++ [c] ∧
    0x30 ≤ c ∧ c ≤ 0x39 := by
  obtain ⟨c, hc, hc2⟩ := digits_succ_snoc 1 k
  refine ⟨c, ?_, hc2⟩
  simp only [oldVol]; rw [hc]; simp [str]

theorem old_not_first {dig : Nat → Bool} {base : Str} (hb : 0x0A ∉ base) (k : Nat) :
    isFirst dig (oldVol base (k + 1)) = false := by
  cases h : isFirst dig (oldVol base (k + 1)) with
  | false => rfl
  | true =>
    exfalso
    obtain ⟨c, hc, hc2⟩ := oldVol_shape base k
    have hnl : 0x0A ∉ oldVol base (k + 1) := by
      intro hm
      simp only [oldVol, List.mem_append, List.mem_singleton, str] at hm
      rcases hm with ((hm | hm) | hm) | hm
      · exact hb hm
      · revert hm; decide
      · rw [show 'r'.toNat = 0x72 from rfl] at hm; omega
      · have := digits_mem hm; omega
    rw [is_first_iff dig _ hnl] at h
    rcases h with h | ⟨b, h⟩ | ⟨b, h⟩
    · rw [hc] at h
      exact (lower_digit hc2).1 (firstName_last h)
    · have h1 : base ++ [0x2E] ++ (['r'.toNat + k / 100] ++ digits 2 k) = b ++ [0x2E] ++ str "000" := by
        have : oldVol base (k + 1) = base ++ [0x2E] ++ (['r'.toNat + k / 100] ++ digits 2 k) := by simp [oldVol, str]
        rw [← this, h]; simp [str]
      have := (List.append_inj' h1 (by simp [digits_length, str])).2
      simp only [List.cons_append, List.nil_append] at this
      have := congrArg List.head? this
      simp [str] at this
      omega
    · have h1 : base ++ [0x2E] ++ (['r'.toNat + k / 100] ++ digits 2 k) = b ++ [0x2E] ++ str "001" := by
        have : oldVol base (k + 1) = base ++ [0x2E] ++ (['r'.toNat + k / 100] ++ digits 2 k) := by simp [oldVol, str]
        rw [← this, h]; simp [str]
      have := (List.append_inj' h1 (by simp [digits_length, str])).2
      simp only [List.cons_append, List.nil_append] at this
      have := congrArg List.head? this
      simp [str] at this
      omega

/-- C28: for a complete set of volumes in the old naming, in any order and with any base
name, the `.rar` is picked. -/
theorem first_rars_old (dig : Nat → Bool) (lower : Str → Str) (hl : LowerOk lower) (base : Str)
    (hb : 0x0A ∉ base) (n : Nat) (files : List Str) (hn : 0 < n)
    (hp : files.Perm ((List.range n).map (oldVol base))) : firstRars dig lower files = [base ++ str ".rar"] := by
  obtain ⟨m, rfl⟩ : ∃ m, n = m + 1 := ⟨n - 1, by omega⟩
  have hsplit : (List.range (m + 1)).map (oldVol base) = oldVol base 0 :: (List.range m).map (fun k => oldVol base (k + 1)) := by
    rw [List.range_succ_eq_map]; simp
  rw [hsplit] at hp
  -- any test that no later volume passes
  have hfilter : ∀ (t : Str → Bool), (∀ k, t (oldVol base (k + 1)) = false) →
      files.filter t = if t (oldVol base 0) then [oldVol base 0] else [] := by
    intro t ht
    have h1 := hp.filter t
    have h2 : ((List.range m).map (fun k => oldVol base (k + 1))).filter t = [] := by
      rw [List.filter_eq_nil_iff]
      intro x hx
      obtain ⟨k, _, rfl⟩ := List.mem_map.mp hx
      simp [ht k]
    rw [List.filter_cons, h2] at h1
    split at h1
    · rename_i h; rw [if_pos h]; exact List.perm_singleton.mp h1
    · rename_i h; rw [if_neg h]; exact List.perm_nil.mp h1
  have h0 : oldVol base 0 = base ++ str ".rar" := rfl
  unfold firstRars
  simp only
  rw [hfilter (isFirst dig) (old_not_first hb)]
  by_cases hf : isFirst dig (oldVol base 0) = true
  · rw [if_pos hf]
    have he : endsWith (oldVol base 0) (str ".000") = false := by
      cases h : endsWith (oldVol base 0) (str ".000") with
      | false => rfl
      | true =>
        obtain ⟨b, h⟩ := endsWith_iff.mp h
        have := (List.append_inj' (show base ++ str ".rar" = b ++ str ".000" from h) rfl).2
        revert this; decide
    have : firstLoop [oldVol base 0].length 0 [oldVol base 0] = [oldVol base 0] := by
      simp [firstLoop, he]
    rw [this, if_neg (by simp)]
    rfl
  · rw [if_neg hf, if_pos (by simp [firstLoop])]
    have hlow : ∀ k, endsWith (lower (oldVol base (k + 1))) (str ".rar") = false := by
      intro k
      obtain ⟨c, hc, hc2⟩ := oldVol_shape base k
      rw [hc]
      obtain ⟨s', hs'⟩ := hl (base ++ [0x2E] ++ ['r'.toNat + k / 100] ++ digits 1 (k / 10)) [c] (by simp; omega)
      rw [hs']
      cases h : endsWith (s' ++ [c].map lowerA) (str ".rar") with
      | false => rfl
      | true =>
        exfalso
        obtain ⟨b, h⟩ := endsWith_iff.mp h
        have h' : s' ++ [lowerA c] = (b ++ str ".ra") ++ [0x72] := by simpa [str] using h
        have := (List.append_inj' h' rfl).2
        simp at this
        exact (lower_digit hc2).1 this
    rw [hfilter (fun s => endsWith (lower s) (str ".rar")) hlow]
    have hrar : endsWith (lower (oldVol base 0)) (str ".rar") = true := by
      rw [h0]
      obtain ⟨s', hs'⟩ := hl base (str ".rar") (by decide)
      rw [hs', endsWith_iff]
      exact ⟨s', rfl⟩
    rw [if_pos hrar]
    have htake : (oldVol base 0).take ((oldVol base 0).length - 3) ++ str "r00" = oldVol base 1 := by
      rw [h0]
      have e : base ++ str ".rar" = (base ++ [0x2E]) ++ str "rar" := by simp [str]
      rw [e, List.length_append, show (str "rar").length = 3 from rfl, Nat.add_sub_cancel, List.take_left]
      simp [oldVol, str, digits]
    cases m with
    | zero =>
      have hfiles : files = [oldVol base 0] := List.perm_singleton.mp hp
      have hcont : files.contains (oldVol base 1) = false := by
        rw [hfiles]
        simp only [List.contains_cons, List.contains_nil, Bool.or_false, beq_eq_false_iff_ne, ne_eq]
        intro h; have := old_names_distinct base _ _ h; omega
      simp [List.filter_cons, htake, hcont, hfiles, h0]
    | succ m =>
      have hcont : files.contains (oldVol base 1) = true := by
        rw [List.contains_iff_mem, hp.mem_iff]
        exact List.mem_cons_of_mem _ (List.mem_map.mpr ⟨0, by simp, rfl⟩)
      rw [List.filter_cons, htake, hcont]
      simp [h0]

/-- The number in front of the extension is a run of digits. -/
theorem run_unique {dig : Nat → Bool} {p d p' d' : Str} (h : p ++ d = p' ++ d') (hd : ∀ c ∈ d, dig c = true)
    (hd' : ∀ c ∈ d', dig c = true) (hp : ∀ c, p.getLast? = some c → dig c = false)
    (hp' : ∀ c, p'.getLast? = some c → dig c = false) : p = p' ∧ d = d' := by
  rcases List.append_eq_append_iff.mp h with ⟨a, h1, h2⟩ | ⟨a, h1, h2⟩
  · rcases List.eq_nil_or_concat a with rfl | ⟨a', c, rfl⟩
    · simp at h1 h2; exact ⟨h1.symm, h2⟩
    · exfalso
      rw [List.concat_eq_append] at h1 h2
      have h3 := hp' c (by rw [h1]; simp)
      have h4 := hd c (by rw [h2]; simp)
      rw [h3] at h4; simp at h4
  · rcases List.eq_nil_or_concat a with rfl | ⟨a', c, rfl⟩
    · simp at h1 h2; exact ⟨h1, h2.symm⟩
    · exfalso
      rw [List.concat_eq_append] at h1 h2
      have h3 := hp c (by rw [h1]; simp)
      have h4 := hd' c (by rw [h2]; simp)
      rw [h3] at h4; simp at h4

theorem ofDigits_zero_one {w : Nat} {z : Str} (hz : ∀ c ∈ z, c = '0'.toNat) (h : z.length + 1 = w) :
    digits w 1 = z ++ str "1" := by
  subst h
  have hz' : ∀ n, digits n 0 = List.replicate n 0x30 := by
    intro n
    induction n with
    | zero => rfl
    | succ n ih => simp [digits, ih, List.replicate_succ']
  have : z = List.replicate z.length 0x30 := List.eq_replicate_iff.mpr ⟨rfl, hz⟩
  simp only [digits]
  rw [show 1 / 10 = 0 from rfl, hz', ← this]
  rfl

theorem new_first_iff {dig : Nat → Bool} (hd : DigOk dig) {base : Str} (hb : 0x0A ∉ base) {w n : Nat} (hw : 0 < w)
    (hn : n < 10 ^ w) : isFirst dig (newVol base w n) = true ↔ n = 1 := by
  have hnl : 0x0A ∉ newVol base w n := by
    intro hm
    simp only [newVol, List.mem_append] at hm
    rcases hm with ((hm | hm) | hm) | hm
    · exact hb hm
    · revert hm; decide
    · have := digits_mem hm; omega
    · revert hm; decide
  have hdig : ∀ c ∈ digits w n, dig c = true := fun c hc => digOk_digit hd (digits_mem hc)
  have hlast : ∀ x : Str, ∀ c, (x ++ str ".part").getLast? = some c → dig c = false := by
    intro x c h
    have : c = 0x74 := by simp [str] at h; omega
    exact digOk_not hd (by omega) (by omega)
  have hpartlast : ∀ (x q : Str), Is q (str ".part") → ∀ c, (x ++ q).getLast? = some c → dig c = false := by
    intro x q hq c h
    obtain ⟨q', c', rfl, hc'⟩ := is_snoc (l := str ".par") (x := 0x74) hq
    have hcc : c = c' := by simp at h; omega
    subst hcc
    have : c < 128 ∧ 0x39 < c := by
      unfold lowerA at hc'
      rw [show 'A'.toNat = 0x41 from rfl, show 'Z'.toNat = 0x5A from rfl] at hc'
      split at hc' <;> omega
    exact digOk_not hd this.1 (Or.inr this.2)
  rw [is_first_iff dig _ hnl]
  constructor
  · rintro (⟨b, r, he, hr, h⟩ | ⟨b, h⟩ | ⟨b, h⟩)
    · have he' : (base ++ str ".part" ++ digits w n) ++ str ".rar" = b ++ r := he
      obtain ⟨rfl, rfl⟩ := List.append_inj' he' (is_length hr).symm
      obtain ⟨w, rfl⟩ : ∃ v, w = v + 1 := ⟨w - 1, by omega⟩
      rcases h with h | ⟨p, d, hpd, hne, hd1, hp1, hpart⟩ | ⟨p, q, z, hpq, hq, hz⟩
      · exfalso
        obtain ⟨c, hc, hc2⟩ := digits_succ_snoc w n
        have := h c (by rw [hc]; simp)
        rw [digOk_digit hd hc2] at this
        simp at this
      · exfalso
        obtain ⟨h1, h2⟩ := run_unique hpd hdig hd1 (hlast base) hp1
        exact hpart (base ++ str ".") (str "part") (by rw [← h1]; simp [str]) rfl
      · have hpd : (base ++ str ".part") ++ digits (w + 1) n = (p ++ q) ++ (z ++ str "1") := by simpa using hpq
        have hz1 : ∀ c ∈ z ++ str "1", dig c = true := by
          intro c hc
          rcases List.mem_append.mp hc with hc | hc
          · rw [hz c hc]; exact digOk_digit hd (by decide)
          · have : c = 0x31 := by simpa [str] using hc
            rw [this]; exact digOk_digit hd (by decide)
        obtain ⟨h1, h2⟩ := run_unique hpd hdig hz1 (hlast base) (hpartlast p q hq)
        have hlen : z.length + 1 = w + 1 := by
          have := congrArg List.length h2
          rw [digits_length] at this
          simp [str] at this
          omega
        rw [← ofDigits_zero_one hz hlen] at h2
        have h10 : 1 < 10 ^ (w + 1) := by
          have : 0 < 10 ^ w := Nat.pow_pos (by omega)
          rw [Nat.pow_succ]; omega
        exact digits_inj hn h10 h2
    · exfalso
      have := (List.append_inj' (show (base ++ str ".part" ++ digits w n) ++ str ".rar" = b ++ str ".000" from h) rfl).2
      revert this; decide
    · exfalso
      have := (List.append_inj' (show (base ++ str ".part" ++ digits w n) ++ str ".rar" = b ++ str ".001" from h) rfl).2
      revert this; decide
  · rintro rfl
    obtain ⟨w, rfl⟩ : ∃ v, w = v + 1 := ⟨w - 1, by omega⟩
    left
    refine ⟨base ++ str ".part" ++ digits (w + 1) 1, str ".rar", rfl, rfl, Or.inr (Or.inr
      ⟨base, str ".part", List.replicate w '0'.toNat, ?_, rfl, fun c hc => (List.mem_replicate.mp hc).2⟩)⟩
    rw [ofDigits_zero_one (z := List.replicate w '0'.toNat) (fun c hc => (List.mem_replicate.mp hc).2) (by simp)]
    simp

theorem perm_filter_one {files l : List Str} {t : Str → Bool} {x : Str} (hp : files.Perm l)
    (h : l.filter t = [x]) : files.filter t = [x] := by
  have := hp.filter t
  rw [h] at this
  exact List.perm_singleton.mp this

/-- C28: for a complete set in the new naming, in any order, `.part1` is picked, with its zeros. -/
theorem first_rars_new (dig : Nat → Bool) (hd : DigOk dig) (lower : Str → Str) (base : Str)
    (hb : 0x0A ∉ base) (w n : Nat) (files : List Str) (hw : 0 < w) (hn : 0 < n) (hnw : n < 10 ^ w)
    (hp : files.Perm ((List.range n).map fun i => newVol base w (i + 1))) :
    firstRars dig lower files = [newVol base w 1] := by
  have hf : files.filter (isFirst dig) = [newVol base w 1] := by
    apply perm_filter_one hp
    obtain ⟨m, rfl⟩ : ∃ m, n = m + 1 := ⟨n - 1, by omega⟩
    rw [List.range_succ_eq_map, List.map_cons, List.filter_cons]
    rw [if_pos ((new_first_iff hd hb hw (by omega)).mpr rfl)]
    congr 1
    rw [List.filter_eq_nil_iff]
    intro x hx
    simp only [List.map_map, List.mem_map, List.mem_range, Function.comp] at hx
    obtain ⟨k, hk, rfl⟩ := hx
    rw [new_first_iff hd hb hw (by omega)]
    omega
  have he : endsWith (newVol base w 1) (str ".000") = false := by
    cases h : endsWith (newVol base w 1) (str ".000") with
    | false => rfl
    | true =>
      obtain ⟨b, h⟩ := endsWith_iff.mp h
      have := (List.append_inj' (show (base ++ str ".part" ++ digits w 1) ++ str ".rar" = b ++ str ".000" from h) rfl).2
      revert this; decide
  unfold firstRars
  simp only
  rw [hf]
  have : firstLoop [newVol base w 1].length 0 [newVol base w 1] = [newVol base w 1] := by
    simp [firstLoop, he]
  rw [this, if_neg (by simp)]

theorem num_first_iff {dig : Nat → Bool} {base : Str} (hb : 0x0A ∉ base) {n : Nat} (hn : n < 1000) :
    isFirst dig (numVol base n) = true ↔ n = 0 ∨ n = 1 := by
  have hnl : 0x0A ∉ numVol base n := by
    intro hm
    simp only [numVol, List.mem_append] at hm
    rcases hm with (hm | hm) | hm
    · exact hb hm
    · revert hm; decide
    · have := digits_mem hm; omega
  have hsuf : ∀ (b : Str) (m : Nat), m < 1000 → numVol base n = b ++ (str "." ++ digits 3 m) → n = m := by
    intro b m hm h
    have h' : base ++ (str "." ++ digits 3 n) = b ++ (str "." ++ digits 3 m) := by
      rw [← h]; simp [numVol]
    have := (List.append_inj' h' (by simp [digits_length])).2
    exact digits_inj (w := 3) (by omega) (by omega) (List.append_cancel_left this)
  rw [is_first_iff dig _ hnl]
  constructor
  · rintro (h | ⟨b, h⟩ | ⟨b, h⟩)
    · exfalso
      obtain ⟨c, hc, hc2⟩ := digits_succ_snoc 2 n
      have : numVol base n = (base ++ str "." ++ digits 2 (n / 10)) ++ [c] := by simp only [numVol]; rw [hc]; simp
      rw [this] at h
      exact (lower_digit hc2).1 (firstName_last h)
    · left; exact hsuf b 0 (by omega) h
    · right; exact hsuf b 1 (by omega) h
  · rintro (rfl | rfl)
    · right; left; exact ⟨base, by simp [numVol]; rfl⟩
    · right; right; exact ⟨base, by simp [numVol]; rfl⟩

theorem ends000 {base : Str} {n : Nat} (hn : n < 1000) : endsWith (numVol base n) (str ".000") = decide (n = 0) := by
  by_cases h : n = 0
  · subst h; simp only [decide_true]; exact endsWith_iff.mpr ⟨base, by simp [numVol]; rfl⟩
  · rw [decide_eq_false h]
    cases he : endsWith (numVol base n) (str ".000") with
    | false => rfl
    | true =>
      exfalso
      obtain ⟨b, he⟩ := endsWith_iff.mp he
      have h' : base ++ (str "." ++ digits 3 n) = b ++ (str "." ++ digits 3 0) := by
        rw [show (str "." ++ digits 3 0) = str ".000" from rfl, ← he]; simp [numVol]
      have := (List.append_inj' h' (by simp [digits_length])).2
      exact h (digits_inj (w := 3) (by omega) (by omega) (List.append_cancel_left this))

/-- C28: for a complete set of numbered volumes that starts with 000 or 001, in any order,
the first one is picked. -/
theorem first_rars_num (dig : Nat → Bool) (lower : Str → Str) (base : Str) (hb : 0x0A ∉ base) (s n : Nat)
    (files : List Str) (hs : s ≤ 1) (hn : 0 < n) (hsn : s + n ≤ 1000)
    (hp : files.Perm ((List.range n).map fun i => numVol base (s + i))) :
    firstRars dig lower files = [numVol base s] := by
  have e1 : (numVol base 0).take ((numVol base 0).length - 1) ++ str "1" = numVol base 1 := by
    have h0 : numVol base 0 = (base ++ str ".00") ++ [0x30] := by simp [numVol, digits, str]
    have h1 : numVol base 1 = (base ++ str ".00") ++ [0x31] := by simp [numVol, digits, str]
    rw [h0, h1, List.length_append, List.length_singleton, Nat.add_sub_cancel, List.take_left]; rfl
  have hne : numVol base 0 ≠ numVol base 1 := by
    intro h
    have := digits_inj (w := 3) (by omega) (by omega) (List.append_cancel_left (show (base ++ str ".") ++ digits 3 0 = (base ++ str ".") ++ digits 3 1 from h))
    omega
  have hrest : ∀ (a : Nat) (m : Nat), 2 ≤ a → a + m ≤ 1000 →
      ((List.range m).map fun i => numVol base (a + i)).filter (isFirst dig) = [] := by
    intro a m ha hm
    rw [List.filter_eq_nil_iff]
    intro x hx
    simp only [List.mem_map, List.mem_range] at hx
    obtain ⟨k, hk, rfl⟩ := hx
    rw [num_first_iff hb (by omega)]
    omega
  obtain ⟨m, rfl⟩ : ∃ m, n = m + 1 := ⟨n - 1, by omega⟩
  have hloop : firstLoop (files.filter (isFirst dig)).length 0 (files.filter (isFirst dig)) = [numVol base s] := by
    have hperm := hp.filter (isFirst dig)
    have hsplit : (List.range (m + 1)).map (fun i => numVol base (s + i)) =
        numVol base s :: (List.range m).map (fun i => numVol base (s + 1 + i)) := by
      rw [List.range_succ_eq_map, List.map_cons, List.map_map]
      congr 1
      apply List.map_congr_left
      intro i _
      simp only [Function.comp]
      congr 1; omega
    rw [hsplit, List.filter_cons, if_pos ((num_first_iff hb (by omega)).mpr (by omega))] at hperm
    have single : ∀ k, k ≤ 1 → firstLoop 1 0 [numVol base k] = [numVol base k] := by
      intro k hk
      rw [firstLoop]
      simp only [List.getElem?_cons_zero]
      rw [ends000 (by omega)]
      split
      · rename_i h
        have : k = 0 := by simpa using h
        subst this
        rw [e1]
        have : [numVol base 0].erase (numVol base 1) = [numVol base 0] := by
          rw [List.erase_of_not_mem]; simp [Ne.symm hne]
        rw [this]; rfl
      · rfl
    by_cases hcase : s = 1 ∨ m = 0
    · have : ((List.range m).map (fun i => numVol base (s + 1 + i))).filter (isFirst dig) = [] := by
        rcases hcase with rfl | rfl
        · exact hrest _ _ (by omega) (by omega)
        · rfl
      rw [this] at hperm
      rw [List.perm_singleton.mp hperm]
      exact single s hs
    · have hs0 : s = 0 := by omega
      subst hs0
      obtain ⟨m, rfl⟩ : ∃ k, m = k + 1 := ⟨m - 1, by omega⟩
      have hsplit2 : (List.range (m + 1)).map (fun i => numVol base (0 + 1 + i)) =
          numVol base 1 :: (List.range m).map (fun i => numVol base (2 + i)) := by
        rw [List.range_succ_eq_map, List.map_cons, List.map_map]
        congr 1
        apply List.map_congr_left
        intro i _
        simp only [Function.comp]
        congr 1; omega
      rw [hsplit2, List.filter_cons, if_pos ((num_first_iff hb (by omega)).mpr (by omega)), hrest _ _ (by omega) (by omega)] at hperm
      have h000 := ends000 (base := base) (n := 0) (by omega)
      have h001 := ends000 (base := base) (n := 1) (by omega)
      simp only [decide_true] at h000
      simp only [Nat.one_ne_zero, decide_false] at h001
      have htwo : ∀ {l : List Str} {a b : Str}, l.Perm [a, b] → l = [a, b] ∨ l = [b, a] := by
        intro l a b h
        have hl := h.length_eq
        match l, hl with
        | [x, y], _ =>
          rcases (List.mem_cons.mp (h.subset (List.mem_cons_self ..))) with rfl | hx
          · left; rw [List.perm_singleton.mp h.cons_inv]
          · have : x = b := by simpa using hx
            subst this
            right
            have := (h.trans (List.Perm.swap a x []).symm).cons_inv
            rw [List.perm_singleton.mp this]
      rcases htwo hperm with h | h
      · rw [h]
        show firstLoop 2 0 _ = _
        rw [firstLoop]
        simp only [List.getElem?_cons_zero, h000, if_true, e1]
        have : [numVol base 0, numVol base 1].erase (numVol base 1) = [numVol base 0] := by
          rw [List.erase_cons, if_neg (by simpa using hne)]; simp
        rw [this]
        rfl
      · rw [h]
        show firstLoop 2 0 _ = _
        rw [firstLoop]
        simp only [List.getElem?_cons_zero, h001, Bool.false_eq_true, if_false]
        rw [firstLoop]
        simp only [Nat.zero_add, List.getElem?_cons_succ, List.getElem?_cons_zero, h000, if_true, e1]
        have : [numVol base 1, numVol base 0].erase (numVol base 1) = [numVol base 0] := by simp
        rw [this]
        rfl
  unfold firstRars
  simp only
  rw [hloop, if_neg (by simp)]

/-- C28, full statement for several sets: no second volume of a numbered set is returned
when its first one is there. -/
def only_first_volumes : Prop :=
  ∀ (files : List Str) (b : Str), b ++ str ".000" ∈ files → files.Nodup →
    b ++ str ".001" ∉ firstRars asciiDig (·.map lowerA) files

/-- C28 is false for two numbered sets in one directory: the list shrinks while it is
iterated over, and a set is skipped. -/
theorem first_rars_skips_set : ¬ only_first_volumes := by
  intro h
  have := h [str "a.001", str "a.000", str "b.000", str "b.001"] (str "b") (by decide) (by decide)
  revert this
  decide +kernel

example : isRar asciiDig (str "x.R05") = true := by decide +kernel
example : isRar asciiDig (str "x.cbr") = false := by decide +kernel
example : firstRars asciiDig (·.map lowerA) [str "a.r00", str "a.part2.r00", str "a.part2.rar"] = [str "a.part2.rar"] := by
  decide +kernel
example : [str "a.r00", str "a.rar"].Perm ((List.range 2).map (oldVol (str "a"))) := by decide +kernel

end Rescene.Props
