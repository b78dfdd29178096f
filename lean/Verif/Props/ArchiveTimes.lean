import Verif.Props.ArchiveDate
import Verif.Lemmas.ReadStep
/-
C117: extended times that are cut off, the times in a whole file header, and examples.
-/
namespace Rescene.Props
open Rescene Rescene.Spec

theorem rem_mono {a b : Bytes} : ∀ {cnt pos rem r p : Nat}, xtimeRem a cnt pos rem = .ok (r, p) → pos ≤ a.length →
    xtimeRem (a ++ b) cnt pos rem = .ok (r, p) ∧ p ≤ a.length := by
  intro cnt
  induction cnt with
  | zero =>
    intro pos rem r p h hp
    cases h
    exact ⟨rfl, hp⟩
  | succ cnt ih =>
    intro pos rem r p h hp
    rw [xtimeRem, bind_eq_ok] at h
    obtain ⟨x, hx, h⟩ := h
    have hl := (unpackAt_ok_iff.1 hx).1
    obtain ⟨h1, h2⟩ := ih h (by omega)
    refine ⟨?_, h2⟩
    rw [xtimeRem, unpackAt_mono hx, ok_bind]
    exact h1

theorem xtime_mono {a b : Bytes} {flag pos p : Nat} {dt : Option (Nat × Nat × Nat × Nat × Nat × Nat)} {r : Option XTime}
    (h : parseXTime flag a pos dt = .ok (r, p)) (hp : pos ≤ a.length) :
    parseXTime flag (a ++ b) pos dt = .ok (r, p) ∧ p ≤ a.length := by
  unfold parseXTime at h ⊢
  split at h
  · rename_i h8
    rw [if_pos h8]
    rw [bind_eq_ok] at h
    obtain ⟨⟨d, q⟩, h1, h2⟩ := h
    rw [bind_eq_ok] at h2
    obtain ⟨⟨rem, q2⟩, h3, h4⟩ := h2
    simp only [pure_eq_ok] at h4
    cases h4
    cases dt with
    | some d2 =>
      cases h1
      obtain ⟨h5, h6⟩ := rem_mono (b := b) h3 hp
      simp only [ok_bind, h5]
      exact ⟨rfl, h6⟩
    | none =>
      simp only at h1
      rw [bind_eq_ok] at h1
      obtain ⟨s, hs, h6⟩ := h1
      rw [pure_eq_ok] at h6
      cases h6
      have hl := (unpackAt_ok_iff.1 hs).1
      obtain ⟨h5, h6⟩ := rem_mono (b := b) h3 hl
      simp only [unpackAt_mono hs, ok_bind, pure, Except.pure, h5]
      exact ⟨trivial, h6⟩
  · rename_i h8
    rw [if_neg h8]
    cases h
    exact ⟨rfl, hp⟩

theorem rem_error {a : Bytes} {e : Err} : ∀ {cnt pos rem : Nat}, xtimeRem a cnt pos rem = .error e → e = .structError := by
  intro cnt
  induction cnt with
  | zero =>
    intro pos rem h
    cases h
  | succ cnt ih =>
    intro pos rem h
    rw [xtimeRem] at h
    unfold unpackAt at h
    split at h
    · exact ih h
    · cases h
      rfl

theorem xtime_error {a : Bytes} {flag pos : Nat} {dt : Option (Nat × Nat × Nat × Nat × Nat × Nat)} {e : Err}
    (h : parseXTime flag a pos dt = .error e) : e = .structError := by
  unfold parseXTime at h
  split at h
  · cases dt with
    | some d =>
      simp only [ok_bind] at h
      cases hx : xtimeRem a (flag &&& 3) pos 0 with
      | error e2 =>
        rw [hx] at h
        cases h
        exact rem_error hx
      | ok v =>
        rw [hx] at h
        cases h
    | none =>
      simp only at h
      unfold unpackAt at h
      split at h
      · simp only [ok_bind, pure, Except.pure] at h
        cases hx : xtimeRem a (flag &&& 3) (pos + 4) 0 with
        | error e2 =>
          rw [hx] at h
          cases h
          exact rem_error hx
        | ok v =>
          rw [hx] at h
          cases h
      · cases h
        rfl
  · cases h

theorem ext_error {a : Bytes} {pos : Nat} {fdt : Nat × Nat × Nat × Nat × Nat × Nat} {e : Err}
    (h : parseExtTime a pos fdt = .error e) : e = .structError := by
  unfold parseExtTime at h
  have hf : ∃ v, (if pos + 2 ≤ a.length then do
      let f ← unpackAt 2 a pos
      return (f, pos + 2)
    else .ok (0, pos) : Res (Nat × Nat)) = .ok v := by
    split
    · rename_i hl
      refine ⟨(ofLe (slice a pos (pos + 2)), pos + 2), ?_⟩
      unfold unpackAt
      rw [if_pos hl]
      rfl
    · exact ⟨_, rfl⟩
  obtain ⟨⟨fl, q⟩, hv⟩ := hf
  rw [hv, ok_bind] at h
  simp only at h
  cases h1 : parseXTime (fl >>> 12) a q (some fdt) with
  | error e2 => rw [h1] at h; cases h; exact xtime_error h1
  | ok v1 =>
  obtain ⟨m, q1⟩ := v1
  rw [h1, ok_bind] at h
  simp only at h
  cases h2 : parseXTime (fl >>> 8) a q1 none with
  | error e2 => rw [h2] at h; cases h; exact xtime_error h2
  | ok v2 =>
  obtain ⟨c, q2⟩ := v2
  rw [h2, ok_bind] at h
  simp only at h
  cases h3 : parseXTime (fl >>> 4) a q2 none with
  | error e2 => rw [h3] at h; cases h; exact xtime_error h3
  | ok v3 =>
  obtain ⟨t, q3⟩ := v3
  rw [h3, ok_bind] at h
  simp only at h
  cases h4 : parseXTime fl a q3 none with
  | error e2 => rw [h4] at h; cases h; exact xtime_error h4
  | ok v4 => rw [h4] at h; cases h

theorem ext_mono {a b : Bytes} {pos p : Nat} {fdt : Nat × Nat × Nat × Nat × Nat × Nat} {e : ExtTimes} (hl : pos + 2 ≤ a.length)
    (h : parseExtTime a pos fdt = .ok (e, p)) : parseExtTime (a ++ b) pos fdt = .ok (e, p) ∧ p ≤ a.length := by
  unfold parseExtTime at h ⊢
  rw [if_pos hl] at h
  rw [if_pos (by rw [List.length_append]; omega)]
  rw [bind_eq_ok] at h
  obtain ⟨⟨fl, q⟩, h0, h⟩ := h
  rw [bind_eq_ok] at h0
  obtain ⟨f, hf, h0⟩ := h0
  rw [pure_eq_ok] at h0
  cases h0
  rw [unpackAt_mono hf]
  rw [bind_eq_ok] at h
  obtain ⟨⟨m, q1⟩, hm, h⟩ := h
  rw [bind_eq_ok] at h
  obtain ⟨⟨c, q2⟩, hc, h⟩ := h
  rw [bind_eq_ok] at h
  obtain ⟨⟨t, q3⟩, ht, h⟩ := h
  rw [bind_eq_ok] at h
  obtain ⟨⟨r, q4⟩, hr, h⟩ := h
  simp only [pure_eq_ok] at h
  cases h
  obtain ⟨m1, m2⟩ := xtime_mono (b := b) hm hl
  obtain ⟨c1, c2⟩ := xtime_mono (b := b) hc m2
  obtain ⟨t1, t2⟩ := xtime_mono (b := b) ht c2
  obtain ⟨r1, r2⟩ := xtime_mono (b := b) hr t2
  simp only [ok_bind, pure, Except.pure, m1, c1, t1, r1]
  exact ⟨trivial, r2⟩

/-- C117: when the header ends inside the extended times, behind their flags, then reading the block raises an error; no time is
made up. -/
theorem ext_times_cut (pre : Bytes) {t : StoredTimes} (h : t.Ok) {k : Nat} (h2 : 2 ≤ k) (hk : k < t.bytes.length)
    (fdt : Nat × Nat × Nat × Nat × Nat × Nat) : parseExtTime (pre ++ t.bytes.take k) pre.length fdt = .error .structError := by
  have hall := ext_times_read pre [] h fdt
  cases hp : parseExtTime (pre ++ t.bytes.take k) pre.length fdt with
  | error e => rw [ext_error hp]
  | ok v =>
    obtain ⟨e, p⟩ := v
    have hlen : (pre ++ t.bytes.take k).length = pre.length + k := by
      rw [List.length_append, List.length_take]
      omega
    obtain ⟨m1, m2⟩ := ext_mono (b := t.bytes.drop k) (by omega) hp
    rw [List.append_assoc, List.take_append_drop] at m1
    rw [List.append_nil, m1] at hall
    have := congrArg Prod.snd (Except.ok.inj hall)
    simp only at this
    omega

/-- C117: the times of a whole file header: the DOS time and the extended times are read as they were stored, whatever the name, the
sizes of 64 bits and the salt are. -/
theorem file_times {base hi name salt : Bytes} {flags packed unpacked os crc dt ver method attr : Nat} {s : Str} {t : StoredTimes}
    (post : Bytes) (hb : base.length = 7) (h1 : packed < 2 ^ 32) (h2 : unpacked < 2 ^ 32) (h3 : os < 256) (h4 : crc < 2 ^ 32)
    (h5 : dt < 2 ^ 32) (h6 : ver < 256) (h7 : method < 256) (h8 : name.length < 65536) (h9 : attr < 2 ^ 32)
    (hh : hi.length = if hasFlag flags 0x100 then 8 else 0) (hsalt : salt.length = if hasFlag flags 0x400 then 8 else 0)
    (hx : hasFlag flags 0x1000 = true) (hname : packedName flags name = .ok s) (ht : t.Ok) :
    ∃ f p, parseFile (base ++ (le 4 packed ++ (le 4 unpacked ++ (le 1 os ++ (le 4 crc ++ (le 4 dt ++ (le 1 ver ++ (le 1 method ++
        (le 2 name.length ++ (le 4 attr ++ (hi ++ (name ++ (salt ++ (t.bytes ++ post)))))))))))))) flags = .ok (f, p) ∧
      f.datetime = dt ∧ f.origName = name ∧ f.name = s ∧
      f.times = some ⟨some ⟨parseDosTime dt, (t.mtime.map Fine.units).getD 0, (t.mtime.map Fine.odd).getD false⟩,
        t.ctime.map timeOf, t.atime.map timeOf, t.arctime.map timeOf⟩ := by
  generalize hrest : hi ++ (name ++ (salt ++ (t.bytes ++ post))) = rest
  generalize hbuf : base ++ (le 4 packed ++ (le 4 unpacked ++ (le 1 os ++ (le 4 crc ++ (le 4 dt ++ (le 1 ver ++ (le 1 method ++
        (le 2 name.length ++ (le 4 attr ++ rest))))))))) = buf
  have u1 : unpackAt 4 buf 7 = .ok packed := by
    rw [← hbuf]
    repeat rw [unpackAt_skip (by simp only [le_length, hb]; omega)]
    simp only [le_length, hb]
    exact unpackAt_here (by omega)
  have u2 : unpackAt 4 buf 11 = .ok unpacked := by
    rw [← hbuf]
    repeat rw [unpackAt_skip (by simp only [le_length, hb]; omega)]
    simp only [le_length, hb]
    exact unpackAt_here (by omega)
  have u3 : unpackAt 1 buf 15 = .ok os := by
    rw [← hbuf]
    repeat rw [unpackAt_skip (by simp only [le_length, hb]; omega)]
    simp only [le_length, hb]
    exact unpackAt_here (by omega)
  have u4 : unpackAt 4 buf 16 = .ok crc := by
    rw [← hbuf]
    repeat rw [unpackAt_skip (by simp only [le_length, hb]; omega)]
    simp only [le_length, hb]
    exact unpackAt_here (by omega)
  have u5 : unpackAt 4 buf 20 = .ok dt := by
    rw [← hbuf]
    repeat rw [unpackAt_skip (by simp only [le_length, hb]; omega)]
    simp only [le_length, hb]
    exact unpackAt_here (by omega)
  have u6 : unpackAt 1 buf 24 = .ok ver := by
    rw [← hbuf]
    repeat rw [unpackAt_skip (by simp only [le_length, hb]; omega)]
    simp only [le_length, hb]
    exact unpackAt_here (by omega)
  have u7 : unpackAt 1 buf 25 = .ok method := by
    rw [← hbuf]
    repeat rw [unpackAt_skip (by simp only [le_length, hb]; omega)]
    simp only [le_length, hb]
    exact unpackAt_here (by omega)
  have u8 : unpackAt 2 buf 26 = .ok name.length := by
    rw [← hbuf]
    repeat rw [unpackAt_skip (by simp only [le_length, hb]; omega)]
    simp only [le_length, hb]
    exact unpackAt_here (by omega)
  have u9 : unpackAt 4 buf 28 = .ok attr := by
    rw [← hbuf]
    repeat rw [unpackAt_skip (by simp only [le_length, hb]; omega)]
    simp only [le_length, hb]
    exact unpackAt_here (by omega)
  obtain ⟨fix, hfix, hfl⟩ : ∃ fix : Bytes, buf = fix ++ rest ∧ fix.length = 32 :=
    ⟨base ++ (le 4 packed ++ (le 4 unpacked ++ (le 1 os ++ (le 4 crc ++ (le 4 dt ++ (le 1 ver ++ (le 1 method ++
        (le 2 name.length ++ le 4 attr)))))))), by rw [← hbuf]; simp only [List.append_assoc], by simp only [List.length_append, le_length, hb]⟩
  have hslice : slice buf (32 + hi.length) (32 + hi.length + name.length) = name := by
    rw [hfix, ← hrest, ← List.append_assoc, slice_skip (by rw [List.length_append]; omega) (by omega)]
    rw [List.length_append, hfl, Nat.sub_self, Nat.add_sub_cancel_left]
    exact slice_zero_append rfl
  have hext := ext_times_read (fix ++ hi ++ name ++ salt) post ht (parseDosTime dt)
  have hcat : fix ++ hi ++ name ++ salt ++ (t.bytes ++ post) = buf := by
    rw [hfix, ← hrest]
    simp only [List.append_assoc]
  rw [hcat] at hext
  simp only [List.length_append, hfl] at hext
  have hlarge : ∀ off, off = 32 ∨ off = 36 → hasFlag flags 0x100 = true → ∃ v, unpackAt 4 buf off = .ok v := by
    intro off ho hf
    rw [if_pos hf] at hh
    refine ⟨_, unpackAt_ok_iff.2 ⟨?_, rfl⟩⟩
    rw [hfix, ← hrest]
    simp only [List.length_append, hfl, hh]
    omega
  unfold parseFile
  simp only [u1, u2, u3, u4, u5, u6, u7, u8, u9, ok_bind]
  cases hf : hasFlag flags 0x100 with
  | true =>
    obtain ⟨v1, e1⟩ := hlarge 32 (Or.inl rfl) hf
    obtain ⟨v2, e2⟩ := hlarge 36 (Or.inr rfl) hf
    rw [if_pos hf] at hh
    simp only [hh] at hslice hext
    simp only [if_true, e1, e2, ok_bind, pure, Except.pure, hslice, hname]
    cases hg : hasFlag flags 0x400 with
    | true =>
      rw [if_pos hg] at hsalt
      rw [hsalt] at hext
      simp only [if_true, hx, hext, ok_bind]
      exact ⟨_, _, rfl, rfl, rfl, rfl, rfl⟩
    | false =>
      rw [if_neg (by simp [hg])] at hsalt
      rw [hsalt] at hext
      simp only [Bool.false_eq_true, if_false, if_true, hx, ok_bind]
      rw [Nat.add_zero] at hext
      simp only [hext, ok_bind]
      exact ⟨_, _, rfl, rfl, rfl, rfl, rfl⟩
  | false =>
    rw [if_neg (by simp [hf])] at hh
    simp only [hh] at hslice hext
    simp only [Bool.false_eq_true, if_false, ok_bind, pure, Except.pure, hslice, hname]
    cases hg : hasFlag flags 0x400 with
    | true =>
      rw [if_pos hg] at hsalt
      rw [hsalt] at hext
      simp only [if_true, hx, ok_bind]
      simp only [Nat.add_zero] at hext
      simp only [hext, ok_bind]
      exact ⟨_, _, rfl, rfl, rfl, rfl, rfl⟩
    | false =>
      rw [if_neg (by simp [hg])] at hsalt
      rw [hsalt] at hext
      simp only [Bool.false_eq_true, if_false, if_true, hx, ok_bind]
      simp only [Nat.add_zero] at hext
      simp only [hext, ok_bind]
      exact ⟨_, _, rfl, rfl, rfl, rfl, rfl⟩

/-! ### Examples -/

/-- 2010-01-02 10:20:30. -/
def exStamp : Nat := 30 * 2 ^ 25 + 1 * 2 ^ 21 + 2 * 2 ^ 16 + 10 * 2 ^ 11 + 20 * 2 ^ 5 + 15

/-- A modification time with a fraction, and a time of archiving in an odd second. -/
def exTimes : StoredTimes := ⟨some ⟨false, [1, 2, 3]⟩, none, none, some (exStamp, ⟨true, [0x80, 0x96]⟩)⟩

theorem exTimes_ok : exTimes.Ok := by
  refine ⟨?_, ?_, ?_, ?_⟩
  · intro x h
    cases h
    decide
  · intro s x h
    cases h
  · intro s x h
    cases h
  · intro s x h
    cases h
    decide

example : exTimes.bytes = [0x0E, 0xB0, 1, 2, 3, 0x8F, 0x52, 0x22, 0x3C, 0x80, 0x96] := by decide +kernel

example := ext_times_read [0xFF] [0xEE] exTimes_ok (parseDosTime 0x3AEB8C6F)

example : parseExtTime ([0xFF] ++ (exTimes.bytes ++ [0xEE])) 1 (parseDosTime 0x3AEB8C6F) =
    .ok (⟨some ⟨(2009, 7, 11, 17, 35, 30), 197121, false⟩, none, none, some ⟨(2010, 1, 2, 10, 20, 30), 9863168, true⟩⟩, 12) := by decide +kernel

example : parseExtTime ([0xFF] ++ exTimes.bytes.take 9) 1 (parseDosTime 0x3AEB8C6F) = .error .structError :=
  ext_times_cut [0xFF] exTimes_ok (by decide) (by decide +kernel) _

/-- A header of a stored file `a.b` of 2009-07-11 with these times. -/
def exDatedHeader : Bytes := [0, 0, 0x74, 0, 0x90, 46, 0] ++ (le 4 5 ++ (le 4 5 ++ (le 1 2 ++ (le 4 7 ++ (le 4 0x3AEB8C6F ++ (le 1 20 ++ (le 1 0x30 ++
  (le 2 3 ++ (le 4 32 ++ ([] ++ ([0x61, 0x2E, 0x62] ++ ([] ++ (exTimes.bytes ++ []))))))))))))) 

example := file_times (base := [0, 0, 0x74, 0, 0x90, 46, 0]) (hi := []) (name := [0x61, 0x2E, 0x62]) (salt := []) (flags := 0x9000) (packed := 5)
  (unpacked := 5) (os := 2) (crc := 7) (dt := 0x3AEB8C6F) (ver := 20) (method := 0x30) (attr := 32) (s := str "a.b") (t := exTimes) []
  rfl (by decide) (by decide) (by decide) (by decide) (by decide) (by decide) (by decide) (by decide) (by decide) (by decide) (by decide) (by decide)
  (by decide +kernel) exTimes_ok

/-- What is read out of the header. -/
def exDatedFields : FileFields := ⟨5, 5, 2, 7, 0x3AEB8C6F, 20, 0x30, 32, str "a.b", [0x61, 0x2E, 0x62], none,
  some ⟨some ⟨(2009, 7, 11, 17, 35, 30), 197121, false⟩, none, none, some ⟨(2010, 1, 2, 10, 20, 30), 9863168, true⟩⟩⟩

theorem exDated_read : ReadFile exDatedFields := ⟨exDatedHeader, 0x9000, exDatedHeader.length, by decide +kernel⟩

/-- An archive of that file. -/
def exDated : List Block := [⟨0, 0x6152, 0x72, 0x1A21, 7, 0, [], .plain⟩, ⟨20, 0, 0x74, 0x9000, 46, 5, exDatedHeader, .packed exDatedFields⟩]

theorem exDated_all : ∀ f, FileIn f exDated → ReadFile f := by
  rintro f ⟨b, hb, hk⟩
  simp only [exDated, List.mem_cons, List.not_mem_nil, or_false] at hb
  rcases hb with rfl | rfl
  · cases hk
  · cases hk
    exact exDated_read

example : mostRecentDate exDated = str "2010-01-02" := by decide +kernel
example : mostRecentDate [] = str "1970-01-01" := (newest_date (blocks := []) (by rintro f ⟨b, hb, _⟩; cases hb)).2 (by rintro ⟨f, b, hb, _⟩; cases hb)

theorem exDated_newest : NewestDay exDated 2010 1 2 := by
  obtain ⟨y, m, d, h, ht⟩ := (newest_date exDated_all).1 ⟨exDatedFields, _, List.mem_cons_of_mem _ (List.mem_cons_self ..), rfl⟩
  have h2 : DateText (mostRecentDate exDated) 2010 1 2 := ⟨by decide, by decide, by decide, by decide +kernel⟩
  have a := (date_order ht h2).1 (by decide +kernel)
  have b := (date_order h2 ht).1 (by decide +kernel)
  have : y = 2010 ∧ m = 1 ∧ d = 2 := by
    unfold NotAfter at a b
    omega
  obtain ⟨rfl, rfl, rfl⟩ := this
  exact h

/-- Three executables. -/
def exReleases : List RarExe :=
  [⟨str "2008-09-30_rar380", str "2008-09-30", 3, 80, none⟩, ⟨str "2009-08-16_rar390", str "2009-08-16", 3, 90, none⟩,
    ⟨str "2010-03-15_rar393", str "2010-03-15", 3, 93, none⟩]

theorem exReleases_sorted : exReleases.Pairwise NotLater := by
  unfold exReleases NotLater
  simp only [List.pairwise_cons, List.mem_cons, List.not_mem_nil, or_false]
  refine ⟨?_, ?_, by simp, List.Pairwise.nil⟩
  · rintro a (rfl | rfl) <;> decide +kernel
  · rintro a rfl
    decide +kernel

theorem exReleases_dates : ∀ e ∈ exReleases, ∃ y m d, ReleasedOn e y m d := by
  intro e he
  simp only [exReleases, List.mem_cons, List.not_mem_nil, or_false] at he
  rcases he with rfl | rfl | rfl
  · exact ⟨2008, 9, 30, by decide, by decide, by decide, by decide +kernel⟩
  · exact ⟨2009, 8, 16, by decide, by decide, by decide, by decide +kernel⟩
  · exact ⟨2010, 3, 15, by decide, by decide, by decide, by decide +kernel⟩

example := first_tried exDated_all exDated_newest exReleases_sorted exReleases_dates

example : (executablesFor exReleases (mostRecentDate exDated)).map (·.minor) = [93, 90, 80] := by decide +kernel

end Rescene.Props
