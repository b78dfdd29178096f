import Verif.Model.ArchiveDate
import Verif.Spec.ArchiveDate
import Verif.Props.RarRepo
import Verif.Props.Compression
import Verif.Lemmas.Blocks
/-
C117: the times in a file header and the date of an archive.
-/
namespace Rescene.Props
open Rescene Rescene.Spec

/-! ### Extended times -/

theorem unpack_byte (pre post : Bytes) (b : UInt8) : unpackAt 1 (pre ++ b :: post) pre.length = .ok b.toNat := by
  rw [unpackAt_skip (Nat.le_refl _), Nat.sub_self]
  unfold unpackAt slice
  simp [ofLe]

theorem or_shift (b x : Nat) (h : x < 65536) : (b <<< 16) ||| x = b * 65536 + x := by
  rw [← Nat.shiftLeft_add_eq_or_of_lt (by simpa using h), Nat.shiftLeft_eq]

theorem rem_bytes (pre post fr : Bytes) (h : fr.length ≤ 3) (odd : Bool) :
    xtimeRem (pre ++ (fr ++ post)) fr.length pre.length 0 = .ok ((Fine.mk odd fr).units, pre.length + fr.length) := by
  have step : ∀ (pre post : Bytes) (b : UInt8) (n rem : Nat), xtimeRem (pre ++ b :: post) (n + 1) pre.length rem =
      xtimeRem ((pre ++ [b]) ++ post) n (pre ++ [b]).length ((b.toNat <<< 16) ||| (rem >>> 8)) := by
    intro pre post b n rem
    rw [xtimeRem, unpack_byte, ok_bind]
    simp
  match fr, h with
  | [], _ => simp [xtimeRem, Fine.units, ofLe]
  | [a], _ =>
    rw [List.cons_append, List.length_cons, step]
    have ha := a.toNat_lt
    simp [xtimeRem, Fine.units, ofLe, Nat.shiftLeft_eq]
  | [a, b], _ =>
    have ha := a.toNat_lt
    have hb := b.toNat_lt
    rw [List.cons_append, List.length_cons, step, List.cons_append, List.length_cons, step]
    have h0 : (a.toNat <<< 16 ||| 0 >>> 8) = a.toNat * 65536 := by rw [or_shift _ _ (by simp)]; simp
    have h1 : (a.toNat * 65536) >>> 8 = a.toNat * 256 := by rw [Nat.shiftRight_eq_div_pow]; omega
    rw [h0, h1, or_shift _ _ (by omega)]
    simp [xtimeRem, Fine.units, ofLe]
    omega
  | [a, b, c], _ =>
    have ha := a.toNat_lt
    have hb := b.toNat_lt
    have hc := c.toNat_lt
    rw [List.cons_append, List.length_cons, step, List.cons_append, List.length_cons, step, List.cons_append, List.length_cons, step]
    have h0 : (a.toNat <<< 16 ||| 0 >>> 8) = a.toNat * 65536 := by rw [or_shift _ _ (by simp)]; simp
    have h1 : (a.toNat * 65536) >>> 8 = a.toNat * 256 := by rw [Nat.shiftRight_eq_div_pow]; omega
    have h2 : (b.toNat * 65536 + a.toNat * 256) >>> 8 = b.toNat * 256 + a.toNat := by rw [Nat.shiftRight_eq_div_pow]; omega
    rw [h0, h1, or_shift b.toNat (a.toNat * 256) (by omega), h2, or_shift _ _ (by omega)]
    simp [xtimeRem, Fine.units, ofLe]
    omega
  | _ :: _ :: _ :: _ :: _, h => simp at h

theorem bits_table : ∀ (odd : Bool) (k : Fin 4), let n := 8 + (if odd then 4 else 0) + k.val
    hasFlag n 8 = true ∧ n &&& 3 = k.val ∧ hasFlag n 4 = odd ∧ n < 16 := by decide

theorem bits_read (x : Fine) (h : x.fraction.length ≤ 3) :
    hasFlag x.bits 8 = true ∧ x.bits &&& 3 = x.fraction.length ∧ hasFlag x.bits 4 = x.odd ∧ x.bits < 16 :=
  bits_table x.odd ⟨x.fraction.length, by omega⟩

theorem and_nibble (f m : Nat) (hm : m < 16) : f &&& m = (f % 16) &&& m := by
  apply Nat.eq_of_testBit_eq
  intro i
  rw [Nat.testBit_and, Nat.testBit_and, show 16 = 2 ^ 4 from rfl, Nat.testBit_mod_two_pow]
  by_cases hi : i < 4
  · simp [hi]
  · have : m.testBit i = false := Nat.testBit_lt_two_pow (Nat.lt_of_lt_of_le hm
      (Nat.le_trans (by decide : 16 ≤ 2 ^ 4) (Nat.pow_le_pow_right (by omega) (by omega))))
    simp [this]

theorem xtime_nibble (flag : Nat) (data : Bytes) (pos : Nat) (dt : Option (Nat × Nat × Nat × Nat × Nat × Nat)) :
    parseXTime flag data pos dt = parseXTime (flag % 16) data pos dt := by
  unfold parseXTime hasFlag
  rw [and_nibble flag 8 (by omega), and_nibble flag 3 (by omega), and_nibble flag 4 (by omega)]

theorem xtime_own (pre post : Bytes) (t : Option (Nat × Fine)) (h : ∀ s x, t = some (s, x) → s < 2 ^ 32 ∧ x.fraction.length ≤ 3) :
    parseXTime (bitsOr0 (t.map (·.2))) (pre ++ (timeBytes t ++ post)) pre.length none = .ok (t.map timeOf, pre.length + (timeBytes t).length) := by
  match t, h with
  | none, _ => rfl
  | some (s, x), h =>
    obtain ⟨hs, hx⟩ := h s x rfl
    obtain ⟨h8, h3, h4, _⟩ := bits_read x hx
    simp only [Option.map_some, bitsOr0, timeBytes, parseXTime, h8, if_true]
    rw [List.append_assoc, unpackAt_append pre (x.fraction ++ post) rfl (by omega), ok_bind]
    simp only [ok_bind, pure, Except.pure, h3]
    have hr := rem_bytes (pre ++ le 4 s) post x.fraction hx x.odd
    rw [List.append_assoc, List.length_append, le_length] at hr
    rw [hr]
    simp only [ok_bind, h4, timeOf, List.length_append, le_length, Nat.add_assoc]

theorem xtime_first (pre post : Bytes) (t : Option Fine) (h : ∀ x, t = some x → x.fraction.length ≤ 3)
    (fdt : Nat × Nat × Nat × Nat × Nat × Nat) :
    parseXTime (bitsOr0 t) (pre ++ (fractionOr0 t ++ post)) pre.length (some fdt) =
      .ok (some ⟨fdt, (t.map Fine.units).getD 0, (t.map Fine.odd).getD false⟩,
        pre.length + (fractionOr0 t).length) := by
  match t, h with
  | none, _ => rfl
  | some x, h =>
    obtain ⟨h8, h3, h4, _⟩ := bits_read x (h x rfl)
    simp only [bitsOr0, fractionOr0, parseXTime, h8, if_true, ok_bind, h3]
    rw [rem_bytes pre post x.fraction (h x rfl) x.odd]
    simp only [ok_bind, h4, pure, Except.pure, Option.map_some, Option.getD_some]

/-- C117: the extended times are read as they were stored, and reading stops behind them. -/
theorem ext_times_read (pre post : Bytes) {t : StoredTimes} (h : t.Ok) (fdt : Nat × Nat × Nat × Nat × Nat × Nat) :
    parseExtTime (pre ++ (t.bytes ++ post)) pre.length fdt =
      .ok (⟨some ⟨fdt, (t.mtime.map Fine.units).getD 0, (t.mtime.map Fine.odd).getD false⟩,
        t.ctime.map timeOf, t.atime.map timeOf, t.arctime.map timeOf⟩, pre.length + t.bytes.length) := by
  obtain ⟨hm, hc, ha, hr⟩ := h
  have b : ∀ {o : Option Fine}, (∀ x, o = some x → x.fraction.length ≤ 3) → bitsOr0 o < 16 := by
    intro o ho
    match o with
    | none => simp [bitsOr0]
    | some x => exact (bits_read x (ho x rfl)).2.2.2
  have b2 : ∀ {o : Option (Nat × Fine)}, (∀ s x, o = some (s, x) → s < 2 ^ 32 ∧ x.fraction.length ≤ 3) → bitsOr0 (o.map (·.2)) < 16 := by
    intro o ho
    refine b ?_
    intro x hx
    obtain ⟨⟨s, y⟩, h1, h2⟩ := Option.map_eq_some_iff.1 hx
    cases h2
    exact (ho s y h1).2
  have bm := b hm
  have bc := b2 hc
  have ba := b2 ha
  have br := b2 hr
  unfold parseExtTime StoredTimes.bytes
  generalize hF : bitsOr0 t.mtime * 4096 + bitsOr0 (t.ctime.map (·.2)) * 256 + bitsOr0 (t.atime.map (·.2)) * 16 + bitsOr0 (t.arctime.map (·.2)) = F
  generalize hM : fractionOr0 t.mtime = M
  rw [if_pos (by simp only [List.length_append, le_length]; omega), List.append_assoc, unpackAt_append _ _ rfl (by omega)]
  simp only [ok_bind, pure, Except.pure]
  have e1 : (F >>> 12) % 16 = bitsOr0 t.mtime := by rw [Nat.shiftRight_eq_div_pow]; omega
  have e2 : (F >>> 8) % 16 = bitsOr0 (t.ctime.map (·.2)) := by rw [Nat.shiftRight_eq_div_pow]; omega
  have e3 : (F >>> 4) % 16 = bitsOr0 (t.atime.map (·.2)) := by rw [Nat.shiftRight_eq_div_pow]; omega
  have e4 : F % 16 = bitsOr0 (t.arctime.map (·.2)) := by omega
  rw [xtime_nibble (F >>> 12), e1]
  have s1 := xtime_first (pre ++ le 2 F) (timeBytes t.ctime ++ (timeBytes t.atime ++ (timeBytes t.arctime ++ post))) t.mtime hm fdt
  rw [hM] at s1
  have s2 := xtime_own (pre ++ le 2 F ++ M) (timeBytes t.atime ++ (timeBytes t.arctime ++ post)) t.ctime hc
  have s3 := xtime_own (pre ++ le 2 F ++ M ++ timeBytes t.ctime) (timeBytes t.arctime ++ post) t.atime ha
  have s4 := xtime_own (pre ++ le 2 F ++ M ++ timeBytes t.ctime ++ timeBytes t.atime) post t.arctime hr
  simp only [List.append_assoc, List.length_append, le_length, ← Nat.add_assoc] at s1 s2 s3 s4 ⊢
  rw [s1, ok_bind]
  simp only
  rw [xtime_nibble (F >>> 8), e2, s2, ok_bind]
  simp only
  rw [xtime_nibble (F >>> 4), e3, s3, ok_bind]
  simp only
  rw [xtime_nibble F, e4, s4, ok_bind]

/-- C117: without room for the two bytes of flags there are no other times than the one of the header. -/
theorem ext_times_missing {data : Bytes} {pos : Nat} (h : data.length < pos + 2) (fdt : Nat × Nat × Nat × Nat × Nat × Nat) :
    parseExtTime data pos fdt = .ok (⟨some ⟨fdt, 0, false⟩, none, none, none⟩, pos) := by
  unfold parseExtTime
  rw [if_neg (by omega)]
  rfl

/-! ### Days -/

theorem dos_day (s : Nat) : StampDay s (parseDosTime s).1 (parseDosTime s).2.1 (parseDosTime s).2.2.1 := by
  unfold parseDosTime StampDay
  simp only [show (0x1F : Nat) = 2 ^ 5 - 1 from rfl, show (0x0F : Nat) = 2 ^ 4 - 1 from rfl, show (0x7F : Nat) = 2 ^ 7 - 1 from rfl,
    Nat.and_two_pow_sub_one_eq_mod, Nat.shiftRight_eq_div_pow]
  omega

theorem stamp_range {s y m d : Nat} (h : StampDay s y m d) : 1980 ≤ y ∧ y ≤ 2107 ∧ m < 16 ∧ d < 32 := by
  unfold StampDay at h
  omega

/-- Four digits, a dash, two digits, a dash, two digits. -/
theorem day_text {y m d : Nat} (h : 1980 ≤ y ∧ y ≤ 2107 ∧ m < 16 ∧ d < 32) : DateText (dayText (y, m, d)) y m d := by
  refine ⟨by omega, by omega, by omega, ?_⟩
  obtain ⟨n, rfl⟩ : ∃ n, y = 1980 + n := ⟨y - 1980, by omega⟩
  unfold dayText
  simp only [text_year n (by omega), pad_two m (by omega), pad_two d (by omega), List.append_assoc]

/-- C117: dates as text are in the order of the calendar. -/
theorem date_order {a b : Str} {y m d y2 m2 d2 : Nat} (ha : DateText a y m d) (hb : DateText b y2 m2 d2) :
    strLe a b = true ↔ NotAfter y m d y2 m2 d2 := by
  obtain ⟨hy, hm, hd, rfl⟩ := ha
  obtain ⟨hy2, hm2, hd2, rfl⟩ := hb
  unfold NotAfter
  have e1 : y = 1000 * (y / 1000) + 100 * (y / 100 % 10) + 10 * (y / 10 % 10) + y % 10 := by omega
  have e2 : y2 = 1000 * (y2 / 1000) + 100 * (y2 / 100 % 10) + 10 * (y2 / 10 % 10) + y2 % 10 := by omega
  have e3 : m = 10 * (m / 10) + m % 10 := by omega
  have e4 : m2 = 10 * (m2 / 10) + m2 % 10 := by omega
  have e5 : d = 10 * (d / 10) + d % 10 := by omega
  have e6 : d2 = 10 * (d2 / 10) + d2 % 10 := by omega
  have l1 : y / 100 % 10 < 10 ∧ y / 10 % 10 < 10 ∧ y % 10 < 10 ∧ y2 / 100 % 10 < 10 ∧ y2 / 10 % 10 < 10 ∧ y2 % 10 < 10 ∧ m % 10 < 10 ∧
    m2 % 10 < 10 ∧ d % 10 < 10 ∧ d2 % 10 < 10 := by omega
  generalize y / 1000 = a1 at *
  generalize y / 100 % 10 = a2 at *
  generalize y / 10 % 10 = a3 at *
  generalize y % 10 = a4 at *
  generalize y2 / 1000 = b1 at *
  generalize y2 / 100 % 10 = b2 at *
  generalize y2 / 10 % 10 = b3 at *
  generalize y2 % 10 = b4 at *
  generalize m / 10 = m3 at *
  generalize m % 10 = m4 at *
  generalize m2 / 10 = m5 at *
  generalize m2 % 10 = m6 at *
  generalize d / 10 = d3 at *
  generalize d % 10 = d4 at *
  generalize d2 / 10 = d5 at *
  generalize d2 % 10 = d6 at *
  have hs : str "-" = [0x2D] := by decide
  simp only [hs, digit, strLe, List.cons_append, List.nil_append, Bool.or_eq_true, Bool.and_eq_true, decide_eq_true_eq, beq_iff_eq, and_true,
    Nat.lt_irrefl, false_or, true_and]
  omega

theorem xtime_dos {flag pos p : Nat} {data : Bytes} {dt : Option (Nat × Nat × Nat × Nat × Nat × Nat)} {r : Option XTime}
    (h : parseXTime flag data pos dt = .ok (r, p)) : ∀ x, r = some x → dt = some x.dos ∨ ∃ s, x.dos = parseDosTime s := by
  intro x hx
  unfold parseXTime at h
  split at h
  · rw [bind_eq_ok] at h
    obtain ⟨⟨d, q⟩, h1, h2⟩ := h
    rw [bind_eq_ok] at h2
    obtain ⟨⟨rem, q2⟩, _, h3⟩ := h2
    simp only [pure_eq_ok] at h3
    cases h3
    cases hx
    split at h1
    · cases h1
      exact Or.inl rfl
    · rw [bind_eq_ok] at h1
      obtain ⟨s, _, h4⟩ := h1
      rw [pure_eq_ok] at h4
      cases h4
      exact Or.inr ⟨s, rfl⟩
  · cases h
    obtain ⟨d, hd, rfl⟩ := Option.map_eq_some_iff.1 hx
    exact Or.inl hd

theorem ext_dos {data : Bytes} {pos p s : Nat} {e : ExtTimes} (h : parseExtTime data pos (parseDosTime s) = .ok (e, p)) :
    ∀ x, (e.mtime = some x ∨ e.ctime = some x ∨ e.atime = some x ∨ e.arctime = some x) → ∃ s, x.dos = parseDosTime s := by
  unfold parseExtTime at h
  rw [bind_eq_ok] at h
  obtain ⟨⟨fl, q⟩, _, h⟩ := h
  rw [bind_eq_ok] at h
  obtain ⟨⟨m, q1⟩, hm, h⟩ := h
  rw [bind_eq_ok] at h
  obtain ⟨⟨c, q2⟩, hc, h⟩ := h
  rw [bind_eq_ok] at h
  obtain ⟨⟨a, q3⟩, ha, h⟩ := h
  rw [bind_eq_ok] at h
  obtain ⟨⟨r, q4⟩, hr, h⟩ := h
  simp only [pure_eq_ok] at h
  cases h
  rintro x (hx | hx | hx | hx)
  · rcases xtime_dos hm x hx with h | h
    · exact ⟨s, (Option.some.inj h).symm⟩
    · exact h
  · rcases xtime_dos hc x hx with h | h
    · cases h
    · exact h
  · rcases xtime_dos ha x hx with h | h
    · cases h
    · exact h
  · rcases xtime_dos hr x hx with h | h
    · cases h
    · exact h

theorem file_dos {f : FileFields} (h : ReadFile f) {e : ExtTimes} (he : f.times = some e) :
    ∀ x, (e.mtime = some x ∨ e.ctime = some x ∨ e.atime = some x ∨ e.arctime = some x) → ∃ s, x.dos = parseDosTime s := by
  obtain ⟨buf, flags, p, h⟩ := h
  unfold parseFile at h
  simp only [bind_eq_ok] at h
  obtain ⟨_, _, _, _, _, _, _, _, dt, _, _, _, _, _, _, _, _, _, ⟨_, _, _⟩, _, _, _, h⟩ := h
  obtain ⟨⟨t, q⟩, h1, h2⟩ := h
  rw [pure_eq_ok] at h2
  cases h2
  cases he
  split at h1
  · rw [bind_eq_ok] at h1
    obtain ⟨⟨e2, q2⟩, h3, h4⟩ := h1
    rw [pure_eq_ok] at h4
    cases h4
    exact ext_dos h3
  · cases h1

/-- The days of a file are what the loop goes over. -/
theorem days_iff {f : FileFields} {y m d : Nat} : some (y, m, d) ∈ fileDays f ↔ HasDay f y m d := by
  have hs : ∀ s, dayOf (parseDosTime s) = (y, m, d) ↔ StampDay s y m d := by
    intro s
    have := dos_day s
    unfold StampDay at *
    simp only [dayOf, Prod.mk.injEq]
    omega
  unfold fileDays HasDay
  simp only [List.mem_cons, List.not_mem_nil, or_false, Option.some.injEq, eq_comm (a := (y, m, d)), hs]
  refine or_congr Iff.rfl ?_
  simp only [eq_comm (a := some (y, m, d)), Option.map_eq_some_iff, dayOf, Prod.mk.injEq]
  cases f.times with
  | none => simp
  | some e =>
    simp only [Option.getD_some, Option.some.injEq]
    constructor
    · rintro (⟨x, h, h2⟩ | ⟨x, h, h2⟩ | ⟨x, h, h2⟩ | ⟨x, h, h2⟩)
      · exact ⟨e, x, rfl, Or.inr (Or.inr (Or.inl h)), h2⟩
      · exact ⟨e, x, rfl, Or.inl h, h2⟩
      · exact ⟨e, x, rfl, Or.inr (Or.inl h), h2⟩
      · exact ⟨e, x, rfl, Or.inr (Or.inr (Or.inr h)), h2⟩
    · rintro ⟨_, x, rfl, h | h | h | h, h2⟩
      · exact Or.inr (Or.inl ⟨x, h, h2⟩)
      · exact Or.inr (Or.inr (Or.inl ⟨x, h, h2⟩))
      · exact Or.inl ⟨x, h, h2⟩
      · exact Or.inr (Or.inr (Or.inr ⟨x, h, h2⟩))

theorem has_range {f : FileFields} (hf : ReadFile f) {y m d : Nat} (h : HasDay f y m d) : 1980 ≤ y ∧ y ≤ 2107 ∧ m < 16 ∧ d < 32 := by
  rcases h with h | ⟨e, x, he, hx, rfl, rfl, rfl⟩
  · exact stamp_range h
  · obtain ⟨s, hs⟩ := file_dos hf he x hx
    rw [hs]
    exact stamp_range (dos_day s)

/-- All days that the loops go over. -/
def allDays (blocks : List Block) : List (Option (Nat × Nat × Nat)) :=
  blocks.flatMap fun b => match b.kind with | .packed f => fileDays f | _ => []

theorem recent_days (blocks : List Block) (best : Str) : blocks.foldl newerBlock best = (allDays blocks).foldl newerDay best := by
  unfold allDays
  rw [List.foldl_flatMap]
  congr
  funext best b
  unfold newerBlock
  cases b.kind <;> rfl

theorem fold_newer : ∀ (l : List (Option (Nat × Nat × Nat))) (best : Str),
    (l.foldl newerDay best = best ∨ ∃ t, some t ∈ l ∧ l.foldl newerDay best = dayText t) ∧ strLe best (l.foldl newerDay best) = true ∧
    ∀ t, some t ∈ l → strLe (dayText t) (l.foldl newerDay best) = true := by
  intro l
  induction l with
  | nil =>
    intro best
    refine ⟨Or.inl rfl, ?_, fun t h => absurd h (by simp)⟩
    rcases strLe_total best best with h | h <;> exact h
  | cons o l ih =>
    intro best
    rw [List.foldl_cons]
    obtain ⟨h1, h2, h3⟩ := ih (newerDay best o)
    have hb : strLe best (newerDay best o) = true ∧ (∀ t, o = some t → strLe (dayText t) (newerDay best o) = true) ∧
        (newerDay best o = best ∨ ∃ t, o = some t ∧ newerDay best o = dayText t) := by
      have refl : ∀ a : Str, strLe a a = true := by
        intro a
        rcases strLe_total a a with h | h <;> exact h
      unfold newerDay
      cases o with
      | none => exact ⟨refl best, (fun t h => by cases h), Or.inl rfl⟩
      | some t =>
        simp only
        cases hle : strLe (dayText t) best with
        | true => exact ⟨refl best, fun t2 h => by cases h; exact hle, Or.inl rfl⟩
        | false =>
          refine ⟨?_, fun t2 h => by cases h; exact refl _, Or.inr ⟨t, rfl, rfl⟩⟩
          rcases strLe_total best (dayText t) with h | h
          · exact h
          · rw [hle] at h
            cases h
    refine ⟨?_, strLe_trans hb.1 h2, ?_⟩
    · rcases h1 with h1 | ⟨t, ht, h1⟩
      · rcases hb.2.2 with h | ⟨t, ht, h⟩
        · exact Or.inl (h1.trans h)
        · exact Or.inr ⟨t, by simp [ht], h1.trans h⟩
      · exact Or.inr ⟨t, by simp [ht], h1⟩
    · intro t ht
      rcases List.mem_cons.1 ht with h | h
      · exact strLe_trans (hb.2.1 t h.symm) h2
      · exact h3 t h

theorem mem_allDays {blocks : List Block} {y m d : Nat} : some (y, m, d) ∈ allDays blocks ↔ ∃ f, FileIn f blocks ∧ HasDay f y m d := by
  unfold allDays FileIn
  rw [List.mem_flatMap]
  constructor
  · rintro ⟨b, hb, h⟩
    split at h
    · rename_i f hk
      exact ⟨f, ⟨b, hb, hk⟩, days_iff.1 h⟩
    · cases h
  · rintro ⟨f, ⟨b, hb, hk⟩, h⟩
    refine ⟨b, hb, ?_⟩
    rw [hk]
    exact days_iff.2 h

/-- C117: the date of an archive is the day of its newest file, out of all times of all files; without files it is the first of
January 1970. -/
theorem newest_date {blocks : List Block} (hr : ∀ f, FileIn f blocks → ReadFile f) :
    ((∃ f, FileIn f blocks) → ∃ y m d, NewestDay blocks y m d ∧ DateText (mostRecentDate blocks) y m d) ∧
    ((¬ ∃ f, FileIn f blocks) → mostRecentDate blocks = str "1970-01-01") := by
  have hm : mostRecentDate blocks = (allDays blocks).foldl newerDay (str "1970-01-01") := recent_days blocks _
  obtain ⟨h1, h2, h3⟩ := fold_newer (allDays blocks) (str "1970-01-01")
  rw [← hm] at h1 h2 h3
  have start : DateText (str "1970-01-01") 1970 1 1 := ⟨by decide, by decide, by decide, by decide⟩
  constructor
  · rintro ⟨f, hf⟩
    have hday : HasDay f _ _ _ := Or.inl (dos_day f.datetime)
    have htext := day_text (has_range (hr f hf) hday)
    rcases h1 with h1 | ⟨⟨y, m, d⟩, ht, h1⟩
    · have hle := h3 _ (mem_allDays.2 ⟨f, hf, hday⟩)
      rw [h1, date_order htext start] at hle
      have := (stamp_range (dos_day f.datetime)).1
      unfold NotAfter at hle
      omega
    · obtain ⟨g, hg, hgd⟩ := mem_allDays.1 ht
      have hgt := day_text (has_range (hr g hg) hgd)
      refine ⟨y, m, d, ⟨⟨g, hg, hgd⟩, ?_⟩, h1 ▸ hgt⟩
      intro k y2 m2 d2 hk hkd
      have hle := h3 _ (mem_allDays.2 ⟨k, hk, hkd⟩)
      rw [h1] at hle
      exact (date_order (day_text (has_range (hr k hk) hkd)) hgt).1 hle
  · intro hno
    rcases h1 with h1 | ⟨⟨y, m, d⟩, ht, _⟩
    · exact h1
    · obtain ⟨g, hg, _⟩ := mem_allDays.1 ht
      exact absurd ⟨g, hg⟩ hno

/-- C117: the first executable that is tried for an archive is the oldest one that was released on the day of its newest file or
later, when there is such an executable; else the newest one. -/
theorem first_tried {blocks : List Block} {repo : List RarExe} {y m d : Nat} (hr : ∀ f, FileIn f blocks → ReadFile f)
    (hn : NewestDay blocks y m d) (hs : repo.Pairwise NotLater) (hrel : ∀ e ∈ repo, ∃ y m d, ReleasedOn e y m d) :
    (executablesFor repo (mostRecentDate blocks)).Perm repo ∧
    ((∃ e ∈ repo, ∃ y2 m2 d2, ReleasedOn e y2 m2 d2 ∧ NotAfter y m d y2 m2 d2) →
      ∃ first rest y2 m2 d2, executablesFor repo (mostRecentDate blocks) = first :: rest ∧ ReleasedOn first y2 m2 d2 ∧ NotAfter y m d y2 m2 d2 ∧
        ∀ e ∈ repo, ∀ y3 m3 d3, ReleasedOn e y3 m3 d3 → NotAfter y m d y3 m3 d3 → NotAfter y2 m2 d2 y3 m3 d3) ∧
    ((¬ ∃ e ∈ repo, ∃ y2 m2 d2, ReleasedOn e y2 m2 d2 ∧ NotAfter y m d y2 m2 d2) → ∀ first rest y2 m2 d2,
      executablesFor repo (mostRecentDate blocks) = first :: rest → ReleasedOn first y2 m2 d2 →
        ∀ e ∈ repo, ∀ y3 m3 d3, ReleasedOn e y3 m3 d3 → NotAfter y3 m3 d3 y2 m2 d2) := by
  have hdate : DateText (mostRecentDate blocks) y m d := by
    obtain ⟨f, hf, _⟩ := hn.1
    obtain ⟨y2, m2, d2, hn2, ht⟩ := (newest_date hr).1 ⟨f, hf⟩
    obtain ⟨g, hg, hgd⟩ := hn2.1
    obtain ⟨k, hk, hkd⟩ := hn.1
    have a := hn.2 g _ _ _ hg hgd
    have b := hn2.2 k _ _ _ hk hkd
    have : y = y2 ∧ m = m2 ∧ d = d2 := by
      unfold NotAfter at a b
      omega
    obtain ⟨rfl, rfl, rfl⟩ := this
    exact ht
  obtain ⟨hp, h1, h2⟩ := repo_order hs (mostRecentDate blocks)
  refine ⟨hp, ?_, ?_⟩
  · rintro ⟨e, he, y2, m2, d2, hre, hna⟩
    obtain ⟨first, rest, heq, hle, hold, _⟩ := h1 ⟨e, he, (date_order hdate hre).2 hna⟩
    have hin : first ∈ repo := hp.mem_iff.1 (by rw [heq]; simp)
    obtain ⟨y3, m3, d3, hrf⟩ := hrel first hin
    refine ⟨first, rest, y3, m3, d3, heq, hrf, (date_order hdate hrf).1 hle, ?_⟩
    intro e2 he2 y4 m4 d4 hre2 hna2
    exact (date_order hrf hre2).1 (hold e2 he2 ((date_order hdate hre2).2 hna2))
  · intro hno first rest y2 m2 d2 heq hrf e he y3 m3 d3 hre
    have hall : ∀ e ∈ repo, strLe (mostRecentDate blocks) e.date = false := by
      intro e he
      obtain ⟨y4, m4, d4, hre⟩ := hrel e he
      cases hle : strLe (mostRecentDate blocks) e.date with
      | false => rfl
      | true => exact absurd ⟨e, he, y4, m4, d4, hre, (date_order hdate hre).1 hle⟩ hno
    have hpw := h2 hall
    rw [heq] at hpw
    have hin : e ∈ first :: rest := by
      rw [← heq]
      exact hp.mem_iff.2 he
    rcases List.mem_cons.1 hin with rfl | hin
    · refine (date_order hre hrf).1 ?_
      rcases strLe_total e.date e.date with h | h <;> exact h
    · exact (date_order hre hrf).1 ((List.pairwise_cons.1 hpw).1 e hin)

end Rescene.Props
