import Verif.Lemmas.Inputs
import Verif.Props.Create
import Verif.Props.Glob
import Verif.Props.SrsFiles
/-
C69: which volumes an SRR is made of, when it is made from an SFV file.
C70: the same, when it is made from a first volume.
-/
namespace Rescene.Props
open Rescene Spec

/-! ### C70: from a first volume -/

theorem readFirst_never_fuel (data : Bytes) : readFirst data ≠ .error .fuel := by
  unfold readFirst
  cases hm : openReader data with
  | error e =>
    rw [error_bind]
    intro he
    simp only [Except.error.injEq] at he
    subst he
    unfold openReader at hm
    repeat' split at hm
    all_goals simp [throw_eq_error, pure_eq_ok] at hm
  | ok mode =>
    rw [ok_bind]
    have := readLoop_no_fuel (mode := mode) (data := data) (fuel := data.length + 1) (st := RState.init) endOk_init
      (Nat.lt_succ_of_le (Nat.sub_le _ _))
    cases hr : readLoop mode data (data.length + 1) RState.init with
    | ok t => simp
    | error e =>
      rw [hr] at this
      cases e <;> simp at this ⊢

/-- C70: looking for the volumes ends on every file system with finitely many files, whatever their
names. -/
theorem rar_input_ends {w : World} (hw : WorldOk w) {fs : FS} {files : List Path} (hf : ∀ p, (fs p).isSome → p ∈ files)
    {fuel : Nat} (hfuel : files.length < fuel) (p : Path) :
    handleRar w fs fuel p ≠ .error .fuel := by
  unfold handleRar
  split
  · simp
  · rename_i data hd
    have := readFirst_never_fuel data
    cases hr : readFirst data with
    | error e =>
      rw [error_bind]
      intro he
      simp only [Except.error.injEq] at he
      exact this (he ▸ hr)
    | ok blocks =>
      rw [ok_bind]
      split
      · simp [throw_eq_error]
      · apply volumesFrom_ends hw.dig hf
        have : toCome w.dig (oldNaming blocks) files p ≤ files.length := List.countP_le_length
        omega

theorem hasFlag_bit (f i : Nat) : hasFlag f (2 ^ i) = f.testBit i := by
  unfold hasFlag
  rw [Bool.eq_iff_iff, bne_iff_ne]
  constructor
  · intro h
    cases hb : f.testBit i with
    | true => rfl
    | false =>
      refine absurd (Nat.eq_of_testBit_eq fun k => ?_) h
      rw [Nat.testBit_and, Nat.testBit_two_pow, Nat.zero_testBit]
      by_cases hk : i = k
      · rw [← hk, hb]; rfl
      · simp [hk]
  · intro hb h
    have := congrArg (fun x => x.testBit i) h
    simp [Nat.testBit_and, Nat.testBit_two_pow, hb] at this

theorem naming_cond (b : Block) : (b.btype = 0x73 ∧ hasFlag b.flags 1 = true) ↔ VolHeader b := by
  unfold VolHeader
  rw [show (1 : Nat) = 2 ^ 0 from rfl, hasFlag_bit]

/-- The code looks at the header as it should. -/
theorem naming_iff (blocks : List Block) (isOld : Bool) : oldNaming blocks = isOld ↔ NamingIs blocks isOld := by
  have key : ∀ (l : List Block) (o : Bool), ∃ r, l.foldl (fun old b => if b.btype = 0x73 ∧ hasFlag b.flags 1 = true then !hasFlag b.flags 0x10 else old) o = r ∧
      ((∃ pre h post, l = pre ++ h :: post ∧ VolHeader h ∧ (∀ b ∈ post, ¬ VolHeader b) ∧ r = !h.flags.testBit 4) ∨
        ((∀ b ∈ l, ¬ VolHeader b) ∧ r = o)) := by
    intro l
    induction l with
    | nil => intro o; exact ⟨o, rfl, Or.inr ⟨by simp, rfl⟩⟩
    | cons b l ih =>
      intro o
      rw [List.foldl_cons]
      obtain ⟨r, h1, h2⟩ := ih (if b.btype = 0x73 ∧ hasFlag b.flags 1 = true then !hasFlag b.flags 0x10 else o)
      refine ⟨r, h1, ?_⟩
      rcases h2 with ⟨pre, h, post, rfl, hh, hp, hr⟩ | ⟨hno, hr⟩
      · exact Or.inl ⟨b :: pre, h, post, rfl, hh, hp, hr⟩
      · by_cases hb : VolHeader b
        · rw [if_pos ((naming_cond b).2 hb), show (0x10 : Nat) = 2 ^ 4 from rfl, hasFlag_bit] at hr
          exact Or.inl ⟨[], b, l, rfl, hb, hno, hr⟩
        · rw [if_neg (fun h => hb ((naming_cond b).1 h))] at hr
          refine Or.inr ⟨fun c hc => ?_, hr⟩
          rcases List.mem_cons.1 hc with rfl | hc
          · exact hb
          · exact hno c hc
  obtain ⟨r, h1, h2⟩ := key blocks false
  unfold oldNaming
  rw [h1]
  constructor
  · rintro rfl; exact h2
  · intro h
    rcases h with ⟨pre, x, post, e, hx, hp, hr⟩ | ⟨hno, hr⟩
    · rcases h2 with ⟨pre', x', post', e', hx', hp', hr'⟩ | ⟨hno', hr'⟩
      · rw [e] at e'
        have : x = x' := by
          rcases List.append_eq_append_iff.1 e' with ⟨as, h3, h4⟩ | ⟨as, h3, h4⟩
          · cases as with
            | nil => simp at h4; exact h4.1
            | cons a as =>
              simp at h4
              exact absurd hx' (hp x' (by rw [h4.2]; simp))
          · cases as with
            | nil => simp at h4; exact h4.1.symm
            | cons a as =>
              simp at h4
              exact absurd hx (hp' x (by rw [h4.2]; simp))
        rw [hr, hr', this]
      · exact absurd hx (hno' x (by rw [e]; simp))
    · rcases h2 with ⟨pre', x', post', e', hx', hp', hr'⟩ | ⟨hno', hr'⟩
      · exact absurd hx' (hno x' (by rw [e']; simp))
      · rw [hr, hr']

/-- What the first volume says about the naming: the blocks can be read. -/
def ReadsAs (fs : FS) (p : Path) (isOld : Bool) : Prop :=
  ∃ data blocks, fs p = some data ∧ readFirst data = .ok blocks ∧ NamingIs blocks isOld

theorem handleRar_run {w : World} {fs : FS} {isOld : Bool} {vol : Nat → Path} {k n fuel : Nat} (hr : ReadsAs fs (vol k) isOld)
    (hfirst : firstRars w.dig w.lower [vol k] = [vol k])
    (hnext : ∀ i, i < n → nextArchive w.dig (vol (k + i)) isOld = .ok (vol (k + i + 1))) (hex : ∀ i, i < n → (fs (vol (k + i))).isSome)
    (hnone : fs (vol (k + n)) = none) (hf : n < fuel) :
    handleRar w fs fuel (vol k) = .ok ((List.range n).map fun i => vol (k + i)) := by
  obtain ⟨data, blocks, h1, h2, h3⟩ := hr
  obtain rfl := (naming_iff _ _).2 h3
  unfold handleRar
  rw [h1]
  dsimp only
  rw [h2, ok_bind, if_neg (by simp [hfirst])]
  exact volumesFrom_run hnext hex hnone hf

theorem first_dot_rar {w : World} (hw : WorldOk w) (base : Str) : firstRars w.dig w.lower [base ++ str ".rar"] = [base ++ str ".rar"] := by
  rw [firstRars_single, if_pos]
  right
  obtain ⟨s', h⟩ := hw.lower base (str ".rar") (by decide)
  exact endsWith_iff.mpr ⟨s', by rw [h]; rfl⟩

/-- C70: from `base.rar` in the old naming all volumes `base.rar`, `base.r00` ... are taken up to the first
one that is missing, in that order. -/
theorem rar_input_old {w : World} (hw : WorldOk w) {fs : FS} {base : Str} (hb : 0x0A ∉ base) {isOld : Bool} {n fuel : Nat} (hn : n ≤ 901)
    (hr : ReadsAs fs (oldVol base 0) isOld) (ho : isOld = true ∨ ¬ EndsInPart w.dig base)
    (hex : ∀ i, i < n → (fs (oldVol base i)).isSome) (hnone : fs (oldVol base n) = none) (hf : n < fuel) :
    handleRar w fs fuel (oldVol base 0) = .ok ((List.range n).map (oldVol base)) := by
  have := handleRar_run (w := w) (fs := fs) (vol := oldVol base) (k := 0) (n := n) (fuel := fuel) hr (first_dot_rar hw base)
    (fun i hi => by rw [Nat.zero_add]; exact next_old w.dig hw.dig base isOld hb ho i (by omega))
    (fun i hi => by rw [Nat.zero_add]; exact hex i hi) (by rw [Nat.zero_add]; exact hnone) hf
  rw [this]
  congr 2
  funext i
  rw [Nat.zero_add]

/-- C70: from a volume in the new naming, `base.part01.rar`, all volumes up to the first one that is
missing. -/
theorem rar_input_new {w : World} (hw : WorldOk w) {fs : FS} {base : Str} (hb : 0x0A ∉ base) {k n wd fuel : Nat} (hn : k + n < 10 ^ wd)
    (hr : ReadsAs fs (newVol base wd k) false)
    (hex : ∀ i, i < n → (fs (newVol base wd (k + i))).isSome) (hnone : fs (newVol base wd (k + n)) = none) (hf : n < fuel) :
    handleRar w fs fuel (newVol base wd k) = .ok ((List.range n).map fun i => newVol base wd (k + i)) :=
  handleRar_run (vol := newVol base wd) hr (first_dot_rar hw _)
    (fun i hi => next_new w.dig hw.dig base hb wd (k + i) (by omega)) hex hnone hf

/-- C70: from a numbered volume `base.000` or `base.001`. -/
theorem rar_input_num {w : World} (hw : WorldOk w) {fs : FS} {base : Str} (hb : 0x0A ∉ base) {isOld : Bool} {k n fuel : Nat} (hk : k ≤ 1)
    (hn : k + n < 1000) (hr : ReadsAs fs (numVol base k) isOld)
    (hex : ∀ i, i < n → (fs (numVol base (k + i))).isSome) (hnone : fs (numVol base (k + n)) = none) (hf : n < fuel) :
    handleRar w fs fuel (numVol base k) = .ok ((List.range n).map fun i => numVol base (k + i)) :=
  handleRar_run (vol := numVol base) hr
    (by rw [firstRars_single, if_pos (Or.inl ((num_first_iff hb (by omega)).mpr (by omega)))])
    (fun i hi => next_num w.dig hw.dig base isOld hb (k + i) (by omega)) hex hnone hf

/-- C70: the existing volumes only, each once and in the order of `next_archive`. -/
theorem rar_input_sound {dig : Nat → Bool} {fs : FS} {isOld : Bool} {fuel : Nat} : ∀ {p : Path} {l : List Path},
    volumesFrom dig fs isOld fuel p = .ok l →
    (∀ q ∈ l, (fs q).isSome) ∧ (∀ q, l.head? = some q → q = p) ∧
      ∀ i (h : i + 1 < l.length), nextArchive dig l[i] isOld = .ok l[i + 1] := by
  induction fuel with
  | zero => intro p l h; simp [volumesFrom] at h
  | succ fuel ih =>
    intro p l h
    rw [volumesFrom] at h
    split at h
    · rename_i hp
      simp only [bind_eq_ok, pure_eq_ok, Except.ok.injEq] at h
      obtain ⟨q, hq, more, hm, rfl⟩ := h
      obtain ⟨h1, h2, h3⟩ := ih hm
      refine ⟨fun x hx => ?_, by simp, fun i hi => ?_⟩
      · rcases List.mem_cons.1 hx with rfl | hx
        · exact hp
        · exact h1 x hx
      · cases i with
        | zero =>
          cases more with
          | nil => simp at hi
          | cons a more =>
            have := h2 a rfl
            subst this
            simpa using hq
        | succ i =>
          simp only [List.length_cons] at hi
          simpa using h3 i (by omega)
    · simp only [Except.ok.injEq] at h
      subst h
      simp

/-- C70: a later volume in the old naming is refused. -/
theorem rar_input_later_refused {w : World} (hw : WorldOk w) {fs : FS} {base : Str} (hb : 0x0A ∉ base) {isOld : Bool} {k fuel : Nat} (hk : k ≤ 899)
    (hr : ReadsAs fs (oldVol base (k + 1)) isOld) : handleRar w fs fuel (oldVol base (k + 1)) = .error .valueError := by
  obtain ⟨data, blocks, h1, h2, _⟩ := hr
  unfold handleRar
  rw [h1]
  dsimp only
  rw [h2, ok_bind, if_pos]
  · rfl
  have hx : oldVol base (k + 1) = base ++ (str "." ++ ['r'.toNat + k / 100] ++ digits 2 k) := by simp [oldVol]
  have hlen : (str "." ++ ['r'.toNat + k / 100] ++ digits 2 k).length = 4 := by simp [str, digits_length]
  have hlast : ∃ a b, digits 2 k = [a, b] ∧ 0x30 ≤ b ∧ b ≤ 0x39 := by
    refine ⟨_, _, rfl, ?_, ?_⟩ <;> rw [show '0'.toNat = 0x30 from rfl] <;> omega
  obtain ⟨a, b, hab, hb1, hb2⟩ := hlast
  have hamem : a ∈ digits 2 k := by rw [hab]; simp
  have ha := digits_mem hamem
  have hasc : ∀ c ∈ str "." ++ ['r'.toNat + k / 100] ++ digits 2 k, c < 128 := by
    rw [hab]
    intro c hc
    rw [show 'r'.toNat = 0x72 from rfl] at hc
    simp only [str, List.mem_append, List.mem_cons, List.not_mem_nil, or_false] at hc
    rcases hc with (hc | hc) | hc | hc
    · revert hc; simp; intro hc; omega
    · omega
    · omega
    · omega
  have hfirst : isFirst w.dig (oldVol base (k + 1)) = false := by
    rw [Bool.eq_false_iff]
    intro h
    have hnl : 0x0A ∉ oldVol base (k + 1) := by
      rw [hx]
      intro hm
      rcases List.mem_append.1 hm with hm | hm
      · exact hb hm
      · rw [hab, show 'r'.toNat = 0x72 from rfl] at hm
        simp [str] at hm
        omega
    rw [is_first_iff w.dig _ hnl] at h
    have hend : oldVol base (k + 1) = (base ++ str "." ++ ['r'.toNat + k / 100] ++ [a]) ++ [b] := by
      rw [hx, hab]; simp
    have htail : oldVol base (k + 1) = base ++ [0x2E, 'r'.toNat + k / 100, a, b] := by rw [hx, hab]; simp [str]
    rcases h with ⟨b', r, h, hr, _⟩ | ⟨b', h⟩ | ⟨b', h⟩
    · obtain ⟨r', c, rfl, hc⟩ := is_snoc (l := str ".ra") (x := 0x72) hr
      rw [hend, ← List.append_assoc] at h
      have := (List.append_inj' h rfl).2
      simp only [List.cons.injEq, and_true] at this
      subst this
      exact absurd hc (lower_digit ⟨hb1, hb2⟩).1
    · rw [htail] at h
      have := (List.append_inj' h rfl).2
      rw [show 'r'.toNat = 0x72 from rfl] at this
      simp [str] at this
      omega
    · rw [htail] at h
      have := (List.append_inj' h rfl).2
      rw [show 'r'.toNat = 0x72 from rfl] at this
      simp [str] at this
      omega
  have hrar : endsWith (w.lower (oldVol base (k + 1))) (str ".rar") = false := by
    rw [Bool.eq_false_iff]
    intro h
    obtain ⟨s', hs⟩ := hw.lower base _ hasc
    obtain ⟨b', hb'⟩ := endsWith_iff.mp h
    rw [hx, hs] at hb'
    have := (List.append_inj' hb' (by rw [List.length_map, hlen]; rfl)).2
    rw [hab, show 'r'.toNat = 0x72 from rfl] at this
    simp only [str, List.map_append, List.map_cons, List.map_nil] at this
    have h4 := congrArg List.getLast? this
    simp only [List.getLast?_append] at h4
    simp at h4
    exact (lower_digit ⟨hb1, hb2⟩).1 h4
  rw [firstRars_single, hfirst, hrar]
  simp

/-- C70: so is a later numbered volume. -/
theorem rar_input_num_refused {w : World} (hw : WorldOk w) {fs : FS} {base : Str} (hb : 0x0A ∉ base) {isOld : Bool} {k fuel : Nat} (hk : 2 ≤ k)
    (hk9 : k < 1000) (hr : ReadsAs fs (numVol base k) isOld) : handleRar w fs fuel (numVol base k) = .error .valueError := by
  obtain ⟨data, blocks, h1, h2, _⟩ := hr
  unfold handleRar
  rw [h1]
  dsimp only
  rw [h2, ok_bind, if_pos]
  · rfl
  rw [firstRars_single, if_neg]
  · simp
  rintro (h | h)
  · have := (num_first_iff (dig := w.dig) hb hk9).mp h
    omega
  · have hx : numVol base k = base ++ (str "." ++ digits 3 k) := by simp [numVol]
    obtain ⟨s', hs⟩ := hw.lower base (str "." ++ digits 3 k) (by
      intro c hc
      rcases List.mem_append.1 hc with hc | hc
      · have : c = 0x2E := List.mem_singleton.1 hc
        omega
      · have := digits_mem hc; omega)
    rw [hx, hs] at h
    obtain ⟨t, ht⟩ := endsWith_iff.mp h
    have hl : ((str "." ++ digits 3 k).map lowerA).length = (str ".rar").length := by simp [str, digits_length]
    have := (List.append_inj' ht hl).2
    have hm : 0x72 ∈ (str "." ++ digits 3 k).map lowerA := by rw [this]; decide
    obtain ⟨c, hc, hc2⟩ := List.mem_map.1 hm
    rcases List.mem_append.1 hc with hc | hc
    · have hd : c = 0x2E := List.mem_singleton.1 hc
      subst hd
      exact absurd hc2 (by decide)
    · have hd := digits_mem hc
      unfold lowerA at hc2
      rw [show 'A'.toNat = 65 from rfl, show 'Z'.toNat = 90 from rfl] at hc2
      split at hc2 <;> omega

/-- C70: not so in the new naming.  From `base.part02.rar` an SRR is made without the first volume. -/
theorem rar_input_later_part_accepted {w : World} (hw : WorldOk w) {fs : FS} {base : Str} (hb : 0x0A ∉ base) {k n wd fuel : Nat}
    (hk : 1 < k) (hn : k + n < 10 ^ wd) (hr : ReadsAs fs (newVol base wd k) false)
    (hex : ∀ i, i < n → (fs (newVol base wd (k + i))).isSome) (hnone : fs (newVol base wd (k + n)) = none) (hf : n < fuel) :
    ∃ l, handleRar w fs fuel (newVol base wd k) = .ok l ∧ newVol base wd 1 ∉ l := by
  refine ⟨_, rar_input_new hw hb hn hr hex hnone hf, ?_⟩
  intro hm
  obtain ⟨i, hi, he⟩ := List.mem_map.1 hm
  have hi := List.mem_range.1 hi
  have := new_names_distinct base wd (k + i) 1 (by omega) (by omega) he
  omega

/-! ### C69: from an SFV file -/

/-- C69: a volume is taken for every RAR name in the SFV (duplicates up to case count once), and for nothing
else; without any entry there is an error. -/
theorem sfv_input_members {w : World} (hw : WorldOk w) (sfile : Path) (data : Bytes) :
    ((parseSfvData data).entries = [] → handleSfv w sfile data = .error .valueError) ∧
    ((parseSfvData data).entries ≠ [] → ∃ l, handleSfv w sfile data = .ok l ∧
      (∀ p ∈ l, ∃ e ∈ (parseSfvData data).entries, isRar w.dig e.fileName = true ∧ p = posixJoin2 (dirname sfile) e.fileName) ∧
      (∀ e ∈ (parseSfvData data).entries, (∀ r ∈ (parseSfvData data).entries, SameEntry w.lower e r → isRar w.dig r.fileName = true) →
        ∃ r ∈ (parseSfvData data).entries, SameEntry w.lower e r ∧ posixJoin2 (dirname sfile) r.fileName ∈ l)) := by
  unfold handleSfv
  generalize (parseSfvData data).entries = l
  constructor
  · intro h; simp [h]
  · intro h
    rw [if_neg h]
    have hsub : ∀ e ∈ filterSfvDuplicates w.lower w.sort l, e ∈ l := by
      intro e he
      exact (hw.sort.perm l).subset ((dupLoop_sub w.lower _ none).subset he)
    refine ⟨_, rfl, ?_, ?_⟩
    · intro p hp
      simp only [List.mem_map, List.mem_filter] at hp
      obtain ⟨e, ⟨he, hr⟩, rfl⟩ := hp
      exact ⟨e, hsub e he, hr, rfl⟩
    · intro e he hrar
      obtain ⟨r, hr, hs⟩ := (sfv_duplicates_only w.lower w.sort hw.sort.perm l).2 e he
      exact ⟨r, hsub r hr, hs, List.mem_map.2 ⟨r, List.mem_filter.2 ⟨hr, hrar r (hsub r hr) hs⟩, rfl⟩⟩

/-- The SFV says the same whenever it names a file twice. -/
def NoContradiction (lower : Str → Str) (l : List SfvEntry) : Prop :=
  ∀ e ∈ l, ∀ e' ∈ l, lower e.fileName = lower e'.fileName → e.fileName = e'.fileName ∧ lower e.crc = lower e'.crc

/-- C69: when the RAR names in the SFV are those of a set of volumes, listed in any order, some of them
several times, the volumes are taken in their order, each once. -/
theorem sfv_input_set {w : World} (hw : WorldOk w) {sfile : Path} {data : Bytes} {vol : Nat → Str} {n : Nat} (hn : 0 < n)
    (hlt : ∀ i, i < n → ∀ j, j < n → ∀ c c', sfvLt w.lower w.dig ⟨vol i, c⟩ ⟨vol j, c'⟩ = true ↔ i < j)
    (hrar : ∀ i, i < n → isRar w.dig (vol i) = true)
    (hall : ∀ i, i < n → ∃ e ∈ (parseSfvData data).entries, e.fileName = vol i)
    (honly : ∀ e ∈ (parseSfvData data).entries, isRar w.dig e.fileName = true → ∃ i, i < n ∧ e.fileName = vol i)
    (hdup : NoContradiction w.lower (parseSfvData data).entries)
    (hnb : NothingBetween w.lower w.dig (parseSfvData data).entries) :
    handleSfv w sfile data = .ok ((List.range n).map fun i => posixJoin2 (dirname sfile) (vol i)) := by
  unfold handleSfv
  generalize (parseSfvData data).entries = l at *
  have hne : l ≠ [] := by
    rintro rfl
    obtain ⟨e, he, _⟩ := hall 0 hn
    simp at he
  rw [if_neg hne]
  have hweak := sfv_weak hw.dig hnb
  have hperm := hw.sort.perm l
  have hstrict := (dupLoop_strict hw.dig hweak (fun e he e' he' h => (hdup e he e' he' (by rw [h])).2) (l := w.sort l) (p := none)
    (fun e he => hperm.subset he) (fun x h => by cases h) (hw.sort.sorted l hweak) (fun x h => by cases h)).1
  have hsub : ∀ e ∈ filterSfvDuplicates w.lower w.sort l, e ∈ l := fun e he => hperm.subset ((dupLoop_sub w.lower _ none).subset he)
  have hcover := (sfv_duplicates_only w.lower w.sort hw.sort.perm l).2
  have hF := hstrict.filter (fun e => isRar w.dig e.fileName)
  obtain ⟨is, h1, h2, h3⟩ := names_indices (l := (filterSfvDuplicates w.lower w.sort l).filter fun e => isRar w.dig e.fileName) (vol := vol) (n := n)
    (fun e he => honly e (hsub e (List.mem_filter.1 he).1) (List.mem_filter.1 he).2)
  have hinc : is.Pairwise (· < ·) := by
    have h4 : ((filterSfvDuplicates w.lower w.sort l).filter fun e => isRar w.dig e.fileName).Pairwise
        fun a b => sfvLt w.lower w.dig ⟨a.fileName, []⟩ ⟨b.fileName, []⟩ = true := by
      apply hF.imp
      intro a b hab
      rw [sfvLt_name (a := ⟨a.fileName, []⟩) (a' := a) (b := ⟨b.fileName, []⟩) (b' := b) rfl rfl]
      exact hab
    have h5 := (List.pairwise_map (f := fun e : SfvEntry => e.fileName)
      (R := fun a b => sfvLt w.lower w.dig ⟨a, []⟩ ⟨b, []⟩ = true)).2 h4
    rw [h1, List.pairwise_map] at h5
    exact h5.imp_of_mem (fun {i j} hi hj h => (hlt i (h2 i hi) j (h2 j hj) [] []).1 h)
  have his : is = List.range n := by
    apply increasing_eq hinc List.pairwise_lt_range
    intro i
    rw [List.mem_range]
    refine ⟨h2 i, fun hi => ?_⟩
    obtain ⟨e, he, hei⟩ := hall i hi
    obtain ⟨r, hr, hs⟩ := hcover e he
    have hname : r.fileName = vol i := by rw [← (hdup e he r (hsub r hr) hs.1).1, hei]
    have hmem : vol i ∈ is.map vol := by
      rw [← h1]
      exact List.mem_map.2 ⟨r, List.mem_filter.2 ⟨hr, by rw [hname]; exact hrar i hi⟩, hname⟩
    obtain ⟨j, hj, hji⟩ := List.mem_map.1 hmem
    have hjn := h2 j hj
    have a1 := hlt i hi j hjn [] []
    have a2 := hlt j hjn i hi [] []
    rw [hji] at a1 a2
    rw [sfv_lt_irrefl w.lower w.dig (digNoRar hw.dig)] at a1 a2
    simp only [Bool.false_eq_true, false_iff, Nat.not_lt] at a1 a2
    have : i = j := by omega
    rw [this]; exact hj
  have h6 := congrArg (List.map fun n => posixJoin2 (dirname sfile) n) h1
  rw [List.map_map, List.map_map, his] at h6
  exact congrArg _ h6

theorem digit_code (w n c : Nat) (h : c ∈ digits w n) : 0x30 ≤ c ∧ c ≤ 0x39 := by
  induction w generalizing n with
  | zero => simp [digits] at h
  | succ w ih =>
    simp only [digits, List.mem_append, List.mem_singleton] at h
    rcases h with h | h
    · exact ih _ h
    · have : '0'.toNat = 0x30 := by decide
      omega

theorem isRar_new {dig : Nat → Bool} (base : Str) (hb : 0x0A ∉ base) (w k : Nat) : isRar dig (newVol base w k) = true := by
  refine (isRar_iff _ _).2 ⟨base ++ str ".part" ++ digits w k, str "rar", [], by simp [newVol, str], ?_, Or.inl (by show (str "rar").map lowerA = str "rar"; decide), Or.inl rfl⟩
  intro h
  simp only [List.mem_append] at h
  rcases h with (h | h) | h
  · exact hb h
  · exact absurd h (by decide)
  · have := digit_code _ _ _ h; omega

theorem isRar_old {dig : Nat → Bool} (hd : DigOk dig) (base : Str) (hb : 0x0A ∉ base) {k : Nat} (hk : k ≤ 900) :
    isRar dig (oldVol base k) = true := by
  cases k with
  | zero => exact (isRar_iff _ _).2 ⟨base, str "rar", [], by simp [oldVol, str], hb, Or.inl (by show (str "rar").map lowerA = str "rar"; decide), Or.inl rfl⟩
  | succ k =>
    refine (isRar_iff _ _).2 ⟨base, ['r'.toNat + k / 100] ++ digits 2 k, [], by simp [oldVol, str], hb, Or.inr (Or.inl ?_), Or.inl rfl⟩
    have hr : 'r'.toNat = 114 := by decide
    have hz : 'z'.toNat = 122 := by decide
    have h0 : '0'.toNat = 48 := by decide
    have h9 : '9'.toNat = 57 := by decide
    refine ⟨_, _, _, rfl, Or.inl ?_, (hd _ ?_).2 ⟨?_, ?_⟩, (hd _ ?_).2 ⟨?_, ?_⟩⟩ <;> (try omega)
    have hA : ¬ ('A'.toNat ≤ 'r'.toNat + k / 100 ∧ 'r'.toNat + k / 100 ≤ 'Z'.toNat) := by
      have : 'Z'.toNat = 90 := by decide
      omega
    rw [lowerA, if_neg hA]
    omega

/-- C69 for the names `base.rar`, `base.r00`, ... -/
theorem sfv_input_old {w : World} (hw : WorldOk w) {sfile : Path} {data : Bytes} {base : Str} (hb : 0x0A ∉ base) {n : Nat}
    (hn : 0 < n) (hn9 : n ≤ 901)
    (hall : ∀ i, i < n → ∃ e ∈ (parseSfvData data).entries, e.fileName = oldVol base i)
    (honly : ∀ e ∈ (parseSfvData data).entries, isRar w.dig e.fileName = true → ∃ i, i < n ∧ e.fileName = oldVol base i)
    (hdup : NoContradiction w.lower (parseSfvData data).entries)
    (hnb : NothingBetween w.lower w.dig (parseSfvData data).entries) :
    handleSfv w sfile data = .ok ((List.range n).map fun i => posixJoin2 (dirname sfile) (oldVol base i)) :=
  sfv_input_set hw hn (fun i hi j hj c c' => sfv_old_volumes w.lower w.dig hw.dig hw.ascii base c c' i j (by omega) (by omega))
    (fun _ hi => isRar_old hw.dig base hb (by omega)) hall honly hdup hnb

/-- C69 for the names `base.part01.rar`, `base.part02.rar`, ... -/
theorem sfv_input_new {w : World} (hw : WorldOk w) {sfile : Path} {data : Bytes} {base : Str} (hb : 0x0A ∉ base) {n wd : Nat}
    (hn : 0 < n) (hn9 : n < 10 ^ wd)
    (hall : ∀ i, i < n → ∃ e ∈ (parseSfvData data).entries, e.fileName = newVol base wd (i + 1))
    (honly : ∀ e ∈ (parseSfvData data).entries, isRar w.dig e.fileName = true → ∃ i, i < n ∧ e.fileName = newVol base wd (i + 1))
    (hdup : NoContradiction w.lower (parseSfvData data).entries)
    (hnb : NothingBetween w.lower w.dig (parseSfvData data).entries) :
    handleSfv w sfile data = .ok ((List.range n).map fun i => posixJoin2 (dirname sfile) (newVol base wd (i + 1))) :=
  sfv_input_set hw hn (fun i hi j hj c c' => (sfv_new_volumes w.lower w.dig (digNoRar hw.dig) hw.ascii base c c' wd (i + 1) (j + 1)
    (by omega) (by omega)).trans (by omega)) (fun i _ => isRar_new base hb wd (i + 1)) hall honly hdup hnb

/-! ### C69: the file on disk -/

theorem join_basename (d : Str) {c : Str} (h : 0x2F ∉ c) : basename (posixJoin2 d c) = c := by
  rw [join_plain (head_ne_of_not_mem h)]
  split
  · rename_i hd
    rcases hd with rfl | hd
    · exact basename_plain h
    · obtain ⟨d', rfl⟩ : ∃ d', d = d' ++ [0x2F] := by
        rcases List.eq_nil_or_concat d with rfl | ⟨d', x, rfl⟩
        · simp at hd
        · rw [List.concat_eq_append] at *
          simp at hd
          exact ⟨d', by rw [hd]⟩
      rw [List.append_assoc]
      exact basename_slash d' h
  · exact basename_slash d h

theorem find_only {α : Type} {p : α → Bool} {l : List α} {c : α} (hc : c ∈ l) (hp : p c = true) (hone : ∀ d ∈ l, p d = true → d = c) :
    l.find? p = some c := by
  cases h : l.find? p with
  | none => exact absurd hp (by simpa using List.find?_eq_none.1 h c hc)
  | some d => rw [hone d (List.mem_of_find?_eq_some h) (List.find?_some h)]

/-- C69: with one file of that name up to case in the folder, that file is read; its name in the SRR has
the capitals of the file on disk if the given name has none, and else it is the given name. -/
theorem capitalized_spec (lower : Str → Str) (listdir : Str → Option (List Str)) (isFile : Path → Bool) (p : Path)
    (names : List Str) (c : Str) (hl : listdir (dirname p) = some names) (hc : c ∈ names) (hslash : 0x2F ∉ c)
    (hcase : lower c = lower (basename p)) (hfile : isFile (posixJoin2 (dirname p) c) = true)
    (hone : ∀ d ∈ names, lower d = lower (basename p) → isFile (posixJoin2 (dirname p) d) = true → d = c) :
    ∃ q, capitalizedFn lower listdir isFile p = .ok (posixJoin2 (dirname p) c, q) ∧
      basename q = if lower c ≠ c ∧ lower (basename p) = basename p then c else basename p := by
  have hf : sameNameIn lower isFile (dirname p) (basename p) names = some c := by
    apply find_only hc
    · simp [hcase, hfile]
    · intro d hd h
      simp at h
      exact hone d hd h.1 h.2
  unfold capitalizedFn
  simp only [hl, hf, join_basename _ hslash]
  refine ⟨_, rfl, ?_⟩
  by_cases h1 : lower c = c
  · simp [h1, join_basename _ (basename_no_slash p)]
  · by_cases h2 : lower (basename p) = basename p
    · simp [h1, h2, join_basename _ hslash]
    · simp [h1, h2]

/-- C69: a name without any file is left as it is. -/
theorem capitalized_none (lower : Str → Str) (listdir : Str → Option (List Str)) (isFile : Path → Bool) (p : Path) (hu : Usual p)
    (names : List Str) (hl : listdir (dirname p) = some names)
    (hno : ∀ d ∈ names, lower d = lower (basename p) → isFile (posixJoin2 (dirname p) d) = false) :
    capitalizedFn lower listdir isFile p = .ok (p, p) := by
  have hf : sameNameIn lower isFile (dirname p) (basename p) names = none := by
    apply List.find?_eq_none.2
    intro d hd h
    simp at h
    rw [hno d hd h.1] at h
    simp at h
  unfold capitalizedFn
  simp only [hl, hf, ite_self]
  by_cases h : lower (basename p) = basename p
  · rw [if_pos h, hu]
  · rw [if_neg h]
    simp [h]

/-- C69: the name is on disk as given, and no other up to case: it is taken as it is. -/
theorem capitalized_same {w : World} {fs : FS} {p : Path} (hu : Usual p) (ho : OnlyCase w fs p) (hf : (fs p).isSome = true) :
    capitalizedFn w.lower w.listdir (fun p => (fs p).isSome) p = .ok (p, p) := by
  obtain ⟨names, h1, h2, h3⟩ := ho
  have hu' : posixJoin2 (dirname p) (basename p) = p := hu
  have hf' : sameNameIn w.lower (fun p => (fs p).isSome) (dirname p) (basename p) names = some (basename p) := by
    apply find_only h2
    · simp [hu', hf]
    · intro d hd h
      simp at h
      exact h3 d hd h.1 h.2
  unfold capitalizedFn
  simp only [h1, hf', hu']
  by_cases h : w.lower (basename p) = basename p <;> simp [h, hu']

/-- C69: the volume as it goes into the SRR. -/
theorem rar_input_found {w : World} {fs : FS} {p : Path} (hu : Usual p) (ho : OnlyCase w fs p) (hf : (fs p).isSome = true)
    (sp : Bool) (folder : Str) :
    rarInput w fs sp folder p = (srrName w sp folder p).map fun name => ⟨p, p, name⟩ := by
  unfold rarInput
  rw [capitalized_same hu ho hf]
  cases h : fs p with
  | none => rw [h] at hf; cases hf
  | some d =>
    simp [h]
    cases srrName w sp folder p <;> rfl

/-- C69: a volume whose name on disk has other capitals is read, and recorded as in `capitalized_spec`. -/
theorem rar_input_case {w : World} {fs : FS} {p : Path} {names : List Str} {c : Str} (hl : w.listdir (dirname p) = some names)
    (hc : c ∈ names) (hslash : 0x2F ∉ c) (hcase : w.lower c = w.lower (basename p)) (hfile : (fs (posixJoin2 (dirname p) c)).isSome = true)
    (hone : ∀ d ∈ names, w.lower d = w.lower (basename p) → (fs (posixJoin2 (dirname p) d)).isSome = true → d = c) (folder : Str) :
    rarInput w fs false folder p = .ok ⟨p, posixJoin2 (dirname p) c,
      if w.lower c ≠ c ∧ w.lower (basename p) = basename p then c else basename p⟩ := by
  obtain ⟨q, h1, h2⟩ := capitalized_spec w.lower w.listdir (fun p => (fs p).isSome) p names c hl hc hslash hcase hfile hone
  unfold rarInput
  rw [h1]
  cases h : fs (posixJoin2 (dirname p) c) with
  | none => rw [h] at hfile; cases hfile
  | some d => simp [h, srrName, h2]

/-- C69: a volume that is in the SFV and not on disk: FileNotFound. -/
theorem rar_input_missing {w : World} {fs : FS} {p : Path} (hu : Usual p)
    (names : List Str) (hl : w.listdir (dirname p) = some names)
    (hno : ∀ d ∈ names, w.lower d = w.lower (basename p) → fs (posixJoin2 (dirname p) d) = none) (hf : fs p = none)
    (sp : Bool) (folder : Str) : rarInput w fs sp folder p = .error .fileNotFound := by
  unfold rarInput
  rw [capitalized_none w.lower w.listdir (fun p => (fs p).isSome) p hu names hl (fun d hd h => by simp [hno d hd h])]
  simp [hf]

end Rescene.Props
