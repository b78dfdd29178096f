import Verif.Model.Sfv
import Verif.Spec.Sfv
import Verif.Lemmas.Regex
import Verif.Lemmas.Bytes
import Verif.Props.Volumes
/-
C24, C25, C26: SFV files.
-/
namespace Rescene.Props
open Spec

/-! ### C24 -/

theorem byteSpace_iff {b : UInt8} : byteSpace b = true ↔ White b := by
  simp [byteSpace, White]

theorem lstrip_split {α : Type} (p : α → Bool) (l : List α) : ∃ w, l = w ++ lstrip p l ∧ ∀ x ∈ w, p x = true := by
  refine ⟨l.takeWhile p, (List.takeWhile_append_dropWhile ..).symm, ?_⟩
  induction l with
  | nil => simp
  | cons a l ih =>
    intro x hx
    rw [List.takeWhile_cons] at hx
    split at hx
    · rename_i ha
      rcases List.mem_cons.mp hx with rfl | hx
      · exact ha
      · exact ih x hx
    · simp at hx

theorem lstrip_head {α : Type} {p : α → Bool} {l : List α} {x : α} (h : (lstrip p l).head? = some x) : p x = false := by
  unfold lstrip at h
  induction l with
  | nil => simp at h
  | cons a l ih =>
    rw [List.dropWhile_cons] at h
    split at h
    · exact ih h
    · rename_i ha; simp at h; subst h; simpa using ha

theorem rstrip_split {α : Type} (p : α → Bool) (l : List α) : ∃ w, l = rstrip p l ++ w ∧ ∀ x ∈ w, p x = true := by
  obtain ⟨w, h1, h2⟩ := lstrip_split p l.reverse
  refine ⟨w.reverse, ?_, by simpa using h2⟩
  unfold rstrip
  have := congrArg List.reverse h1
  rw [List.reverse_reverse, List.reverse_append] at this
  exact this

theorem rstrip_last {α : Type} {p : α → Bool} {l : List α} {x : α} (h : (rstrip p l).getLast? = some x) : p x = false := by
  unfold rstrip at h
  rw [List.getLast?_reverse] at h
  exact lstrip_head h

theorem lstrip_nil {α : Type} {p : α → Bool} {l : List α} : lstrip p l = [] ↔ ∀ x ∈ l, p x = true := by
  constructor
  · intro h x hx
    obtain ⟨w, h1, h2⟩ := lstrip_split p l
    rw [h, List.append_nil] at h1
    exact h2 x (h1 ▸ hx)
  · intro h
    unfold lstrip
    induction l with
    | nil => rfl
    | cons a l ih =>
      rw [List.dropWhile_cons, if_pos (h a (by simp))]
      exact ih (fun x hx => h x (by simp [hx]))

theorem rstrip_nil {α : Type} {p : α → Bool} {l : List α} : rstrip p l = [] ↔ ∀ x ∈ l, p x = true := by
  unfold rstrip
  rw [List.reverse_eq_nil_iff]
  have := lstrip_nil (p := p) (l := l.reverse)
  unfold lstrip at this
  rw [this]; simp

theorem strip_nil {α : Type} {p : α → Bool} {l : List α} : strip p l = [] ↔ ∀ x ∈ l, p x = true := by
  unfold strip
  rw [rstrip_nil]
  constructor
  · intro h
    rw [← lstrip_nil]
    cases hl : lstrip p l with
    | nil => rfl
    | cons a t =>
      have h1 := h a (by rw [hl]; simp)
      have h2 := lstrip_head (p := p) (l := l) (x := a) (by rw [hl]; rfl)
      rw [h1] at h2; simp at h2
  · intro h
    rw [lstrip_nil.mpr h]; simp

theorem blank_iff {l : Bytes} : strip byteSpace l = [] ↔ Blank l := by
  rw [strip_nil]; unfold Blank
  constructor <;> intro h b hb
  · exact byteSpace_iff.mp (h b hb)
  · exact byteSpace_iff.mpr (h b hb)

theorem comment_iff {l : Bytes} : (lstrip byteSpace l).head? = some 0x3B ↔ Comment l := by
  constructor
  · intro h
    obtain ⟨w, h1, h2⟩ := lstrip_split byteSpace l
    cases hl : lstrip byteSpace l with
    | nil => rw [hl] at h; simp at h
    | cons a t =>
      rw [hl] at h h1
      simp at h; subst h
      exact ⟨w, t, h1, fun b hb => byteSpace_iff.mp (h2 b hb)⟩
  · rintro ⟨w, t, rfl, hw⟩
    unfold lstrip
    rw [List.dropWhile_append_of_pos (fun b hb => byteSpace_iff.mpr (hw b hb))]
    simp [byteSpace]

theorem trimmed_rstrip (l : Bytes) : Trimmed l (rstrip byteSpace l) := by
  obtain ⟨w, h1, h2⟩ := rstrip_split byteSpace l
  refine ⟨w, h1, fun b hb => byteSpace_iff.mp (h2 b hb), ?_⟩
  intro b hb
  have := rstrip_last hb
  intro hw
  rw [byteSpace_iff.mpr hw] at this
  simp at this

theorem splitNl_append {l rest : Bytes} (hl : 0x0A ∉ l) : splitNl (l ++ 0x0A :: rest) = l :: splitNl rest := by
  induction l with
  | nil => simp [splitNl]
  | cons c l ih =>
    have hc : c ≠ 0x0A := fun h => hl (by simp [h])
    rw [List.cons_append, splitNl, if_neg hc, ih (fun h => hl (by simp [h]))]

theorem splitNl_single {l : Bytes} (hl : 0x0A ∉ l) : splitNl l = [l] := by
  induction l with
  | nil => rfl
  | cons c l ih =>
    have hc : c ≠ 0x0A := fun h => hl (by simp [h])
    rw [splitNl, if_neg hc, ih (fun h => hl (by simp [h]))]

theorem textLines_split {data : Bytes} {lines : List Bytes} (h : TextLines data lines) :
    splitNl (data.map fun c => if c = 0x0D then 0x0A else c) = lines := by
  have hmap : ∀ l : Bytes, 0x0D ∉ l → l.map (fun c => if c = 0x0D then 0x0A else c) = l := by
    intro l hl
    conv => rhs; rw [← List.map_id l]
    apply List.map_congr_left
    intro c hc
    rw [if_neg (by rintro rfl; exact hl hc)]; rfl
  induction h with
  | last l h => rw [hmap l h.2, splitNl_single h.1]
  | more l h sep hs data lines ht ih =>
    have : (if sep = 0x0D then (0x0A : UInt8) else sep) = 0x0A := by rcases hs with rfl | rfl <;> rfl
    rw [List.map_append, List.map_cons, hmap l h.2, this, splitNl_append h.1, ih]

/-- Every byte string consists of lines. -/
theorem textLines_exists (data : Bytes) : ∃ lines, TextLines data lines := by
  induction data with
  | nil => exact ⟨_, .last [] (by simp)⟩
  | cons c data ih =>
    obtain ⟨lines, h⟩ := ih
    by_cases hc : c = 0x0A ∨ c = 0x0D
    · exact ⟨_, .more [] (by simp) c hc data lines h⟩
    · have hc' : c ≠ 0x0A ∧ c ≠ 0x0D := ⟨fun h => hc (Or.inl h), fun h => hc (Or.inr h)⟩
      cases h with
      | last _ hl => exact ⟨_, .last (c :: data) ⟨by simp [Ne.symm hc'.1, hl.1], by simp [Ne.symm hc'.2, hl.2]⟩⟩
      | more l hl sep hs d ls ht =>
        exact ⟨_, .more (c :: l) ⟨by simp [Ne.symm hc'.1, hl.1], by simp [Ne.symm hc'.2, hl.2]⟩ sep hs d ls ht⟩

/-- Where a line ends up. -/
inductive Goes (l : Bytes) : SfvData → Prop
  | nowhere : Blank l → Goes l {}
  | comment : ¬ Blank l → Comment l → Goes l { comments := [latin1 l] }
  | entry (e : SfvEntry) : ¬ Blank l → ¬ Comment l → Goes l { entries := [e] }
  | error (t : Bytes) : ¬ Blank l → ¬ Comment l → Trimmed l t → Goes l { errors := [latin1 t] }

/-- The results of several lines, one after the other. -/
def joinData (l : List SfvData) : SfvData :=
  { entries := l.flatMap (·.entries), comments := l.flatMap (·.comments), errors := l.flatMap (·.errors) }

theorem sfvLine_goes (acc : SfvData) (l : Bytes) : ∃ d, Goes l d ∧ sfvLine acc l = joinData [acc, d] := by
  unfold sfvLine
  split
  · rename_i h
    exact ⟨{}, .nowhere (blank_iff.mp h), by simp [joinData]⟩
  · rename_i hb
    rw [blank_iff] at hb
    split
    · rename_i h
      exact ⟨_, .comment hb (comment_iff.mp h), by simp [joinData]; rfl⟩
    · rename_i hc
      rw [comment_iff] at hc
      simp only
      split
      · rename_i e _
        exact ⟨_, .entry e hb hc, by simp [joinData]⟩
      · exact ⟨_, .error _ hb hc (trimmed_rstrip l), by simp [joinData]; rfl⟩

/-- C24: every line goes to exactly one place: blank lines are dropped, comments are kept
verbatim, every other line gives an entry, or is kept (without the white space at its end)
as an error.  Each list is in the order of the lines. -/
theorem sfv_no_line_lost (data : Bytes) (lines : List Bytes) (h : TextLines data lines) :
    ∃ ds : List SfvData, ds.length = lines.length ∧
      (∀ i (h1 : i < lines.length) (h2 : i < ds.length), Goes lines[i] ds[i]) ∧
      parseSfvData data = joinData ds := by
  unfold parseSfvData
  rw [textLines_split h]
  clear h
  have key : ∀ (lines : List Bytes) (acc : SfvData), ∃ ds : List SfvData, ds.length = lines.length ∧
      (∀ i (h1 : i < lines.length) (h2 : i < ds.length), Goes lines[i] ds[i]) ∧
      lines.foldl sfvLine acc = joinData (acc :: ds) := by
    intro lines
    induction lines with
    | nil => intro acc; exact ⟨[], rfl, by simp, by simp [joinData]⟩
    | cons l lines ih =>
      intro acc
      obtain ⟨d, hd, he⟩ := sfvLine_goes acc l
      obtain ⟨ds, h1, h2, h3⟩ := ih (sfvLine acc l)
      refine ⟨d :: ds, by simp [h1], ?_, ?_⟩
      · intro i g1 g2
        cases i with
        | zero => exact hd
        | succ i => exact h2 i (by simpa using g1) (by simpa using g2)
      · rw [List.foldl_cons, h3, he]
        simp [joinData]
  obtain ⟨ds, h1, h2, h3⟩ := key lines {}
  exact ⟨ds, h1, h2, by rw [h3]; simp [joinData]⟩

/-- C24: in particular the numbers add up. -/
theorem sfv_counts (data : Bytes) (lines : List Bytes) (h : TextLines data lines) [DecidablePred Blank] :
    (parseSfvData data).entries.length + (parseSfvData data).comments.length + (parseSfvData data).errors.length =
      (lines.filter (fun l => ¬ Blank l)).length := by
  obtain ⟨ds, h1, h2, h3⟩ := sfv_no_line_lost data lines h
  rw [h3]
  clear h h3
  induction lines generalizing ds with
  | nil => cases ds <;> simp_all [joinData]
  | cons l lines ih =>
    cases ds with
    | nil => simp at h1
    | cons d ds =>
      have ih' := ih ds (by simpa using h1) (fun i g1 g2 => h2 (i + 1) (by simpa using g1) (by simpa using g2))
      have hd : Goes l d := h2 0 (by simp) (by simp)
      simp only [joinData, List.flatMap_cons, List.length_append] at ih' ⊢
      rw [List.filter_cons]
      cases hd with
      | nowhere hb => simp [hb]; simpa using ih'
      | comment hb _ => simp [hb]; simp at ih'; omega
      | entry e hb _ => simp [hb]; simp at ih'; omega
      | error t hb _ _ => simp [hb]; simp at ih'; omega

/-- C24: each line is parsed on its own, whatever the other lines are. -/
theorem sfv_by_lines (data : Bytes) (lines : List Bytes) (h : TextLines data lines) :
    parseSfvData data = joinData (lines.map parseSfvData) := by
  have hone : ∀ l, 0x0A ∉ l ∧ 0x0D ∉ l → parseSfvData l = sfvLine {} l := by
    intro l hl
    unfold parseSfvData
    rw [textLines_split (.last l hl)]
    rfl
  have hacc : ∀ l acc, sfvLine acc l = joinData [acc, sfvLine {} l] := by
    intro l acc
    unfold sfvLine
    split
    · simp [joinData]
    · split
      · simp [joinData]
      · simp only
        split <;> simp [joinData]
  have hmem : ∀ l ∈ lines, 0x0A ∉ l ∧ 0x0D ∉ l := by
    clear hone hacc
    induction h with
    | last l h => simpa using h
    | more l h sep hs data lines ht ih =>
      intro x hx
      rcases List.mem_cons.mp hx with rfl | hx
      · exact h
      · exact ih x hx
  have key : ∀ (lines : List Bytes) (acc : SfvData), (∀ l ∈ lines, 0x0A ∉ l ∧ 0x0D ∉ l) →
      lines.foldl sfvLine acc = joinData (acc :: lines.map parseSfvData) := by
    intro lines
    induction lines with
    | nil => intro acc _; simp [joinData]
    | cons l lines ih =>
      intro acc hm
      rw [List.foldl_cons, ih _ (fun x hx => hm x (by simp [hx])), hacc, List.map_cons, hone l (hm l (by simp))]
      simp [joinData]
  have := key lines {} hmem
  conv => lhs; unfold parseSfvData
  rw [textLines_split h, this]
  simp [joinData]

/-! ### C25 -/

theorem hexDigit_iff {c : Nat} : hexDigit c = true ↔ Hex c := by
  unfold hexDigit Hex
  rw [show '0'.toNat = 0x30 from rfl, show '9'.toNat = 0x39 from rfl, show 'A'.toNat = 0x41 from rfl,
    show 'F'.toNat = 0x46 from rfl, show 'a'.toNat = 0x61 from rfl, show 'f'.toNat = 0x66 from rfl]
  simp only [Bool.or_eq_true, Bool.and_eq_true, decide_eq_true_eq, or_assoc]

/-- C25: every entry has a checksum of eight hexadecimal digits. -/
theorem sfv_entry_checksum (data : Bytes) (e : SfvEntry) (he : e ∈ (parseSfvData data).entries) :
    e.crc.length = 8 ∧ ∀ c ∈ e.crc, Hex c := by
  have hmk : ∀ {n c : Str} {e : SfvEntry}, mkSfvEntry n c = .ok e → e.crc.length = 8 ∧ ∀ c ∈ e.crc, Hex c := by
    intro n c e h
    unfold mkSfvEntry at h
    split at h
    · rename_i hc
      simp only [Except.ok.injEq] at h
      subst h
      refine ⟨by simp; omega, ?_⟩
      intro x hx
      simp only [List.mem_append, List.mem_replicate] at hx
      rcases hx with ⟨_, rfl⟩ | hx
      · exact Or.inl (by decide)
      · exact hexDigit_iff.mp (List.all_eq_true.mp hc.2.2 x hx)
    · simp at h
  have key : ∀ (lines : List Bytes) (acc : SfvData), (∀ e ∈ acc.entries, e.crc.length = 8 ∧ ∀ c ∈ e.crc, Hex c) →
      ∀ e ∈ (lines.foldl sfvLine acc).entries, e.crc.length = 8 ∧ ∀ c ∈ e.crc, Hex c := by
    intro lines
    induction lines with
    | nil => intro acc h; exact h
    | cons l lines ih =>
      intro acc h
      apply ih
      unfold sfvLine
      split
      · exact h
      · split
        · exact h
        · simp only
          split
          · rename_i e' he'
            intro e he
            simp only [List.mem_append, List.mem_singleton] at he
            rcases he with he | rfl
            · exact h e he
            · unfold sfvEntryOf at he'
              simp only at he'
              split at he'
              · simp at he'
              · exact hmk he'
          · exact h
  exact key _ {} (by simp) e he

theorem rsplit_last {a b : Str} (hb : 0x20 ∉ b) : rsplitSpace (a ++ 0x20 :: b) = some (a, b) := by
  unfold rsplitSpace
  have h : (a ++ 0x20 :: b).reverse = b.reverse ++ 0x20 :: a.reverse := by simp
  have hp : ∀ c ∈ b.reverse, (c != 0x20) = true := by
    intro c hc
    rw [bne_iff_ne]
    rintro rfl
    exact hb (by simpa using hc)
  simp only
  rw [h, List.takeWhile_append_of_pos hp, List.dropWhile_append_of_pos hp]
  simp

theorem strip_id {α : Type} {p : α → Bool} {l : List α} (h1 : ∀ x, l.head? = some x → p x = false)
    (h2 : ∀ x, l.getLast? = some x → p x = false) : strip p l = l := by
  have hl : ∀ l : List α, (∀ x, l.head? = some x → p x = false) → lstrip p l = l := by
    intro l h
    cases l with
    | nil => rfl
    | cons a t => unfold lstrip; rw [List.dropWhile_cons, if_neg (by simp [h a rfl])]
  unfold strip
  rw [hl l h1]
  unfold rstrip
  have := hl l.reverse (by intro x hx; rw [List.head?_reverse] at hx; exact h2 x hx)
  unfold lstrip at this
  rw [this, List.reverse_reverse]

/-- White space for Python's `str.strip`, in Latin-1. -/
def TextSpace (c : Nat) : Prop := c = 0x20 ∨ (9 ≤ c ∧ c ≤ 13) ∨ (0x1C ≤ c ∧ c ≤ 0x1F) ∨ c = 0x85 ∨ c = 0xA0

/-- C25: a line that consists of a name, one or more spaces and a checksum of 1 to 8
hexadecimal digits gives exactly that name and that checksum, padded to eight digits.  The
name may contain spaces and semicolons and any other character of Latin-1, but it does not
begin or end with white space or a quote, not begin with a semicolon, and has no tabs or
line breaks. -/
theorem sfv_line_parsed (name crc : Bytes) (k : Nat)
    (hn : name ≠ []) (hb : ∀ b ∈ name, b ≠ 0x0A ∧ b ≠ 0x0D ∧ b ≠ 9)
    (hh : ∀ b, name.head? = some b → ¬ TextSpace b.toNat ∧ b ≠ 0x22 ∧ b ≠ 0x3B)
    (ht : ∀ b, name.getLast? = some b → ¬ TextSpace b.toNat ∧ b ≠ 0x22)
    (hc1 : 1 ≤ crc.length) (hc8 : crc.length ≤ 8) (hc : ∀ b ∈ crc, Hex b.toNat) (hk : 0 < k) :
    parseSfvData (name ++ List.replicate k 0x20 ++ crc) =
      { entries := [⟨latin1 name, List.replicate (8 - crc.length) '0'.toNat ++ latin1 crc⟩] } := by
  have hnb : ∀ b, name.head? = some b → byteSpace b = false := by
    intro b h
    have := (hh b h).1
    unfold TextSpace at this
    unfold byteSpace
    simp; omega
  have hhex : ∀ b ∈ crc, b.toNat ≠ 9 ∧ b.toNat ≠ 0x0A ∧ b.toNat ≠ 0x0D ∧ b.toNat ≠ 0x20 ∧ byteSpace b = false ∧ l1Space b.toNat = false := by
    intro b h
    have := hc b h
    unfold Hex at this
    rw [show '0'.toNat = 0x30 from rfl, show '9'.toNat = 0x39 from rfl, show 'A'.toNat = 0x41 from rfl,
      show 'F'.toNat = 0x46 from rfl, show 'a'.toNat = 0x61 from rfl, show 'f'.toNat = 0x66 from rfl] at this
    unfold byteSpace l1Space
    simp; omega
  have hl : TextLines (name ++ List.replicate k 0x20 ++ crc) [name ++ List.replicate k 0x20 ++ crc] := by
    apply TextLines.last
    constructor
    · intro h
      simp only [List.mem_append, List.mem_replicate] at h
      rcases h with (h | h) | h
      · exact (hb _ h).1 rfl
      · exact absurd h.2 (by decide)
      · exact (hhex _ h).2.1 rfl
    · intro h
      simp only [List.mem_append, List.mem_replicate] at h
      rcases h with (h | h) | h
      · exact (hb _ h).2.1 rfl
      · exact absurd h.2 (by decide)
      · exact (hhex _ h).2.2.1 rfl
  unfold parseSfvData
  rw [textLines_split hl, List.foldl_cons, List.foldl_nil]
  obtain ⟨b0, nt, rfl⟩ : ∃ b t, name = b :: t := by
    cases name with
    | nil => exact absurd rfl hn
    | cons b t => exact ⟨b, t, rfl⟩
  have h0 := hnb b0 rfl
  unfold sfvLine
  have hls : lstrip byteSpace (b0 :: nt ++ List.replicate k 0x20 ++ crc) = b0 :: nt ++ List.replicate k 0x20 ++ crc := by
    unfold lstrip
    rw [List.cons_append, List.cons_append, List.dropWhile_cons, if_neg (by simp [h0])]
  rw [if_neg, if_neg]
  · -- the end of the line is a digit
    have hrs : rstrip byteSpace (b0 :: nt ++ List.replicate k 0x20 ++ crc) = b0 :: nt ++ List.replicate k 0x20 ++ crc := by
      have := strip_id (p := byteSpace) (l := b0 :: nt ++ List.replicate k 0x20 ++ crc)
        (by intro x hx; simp at hx; subst hx; exact h0)
        (by
          intro x hx
          rw [List.getLast?_append] at hx
          cases hcl : crc.getLast? with
          | none => rw [List.getLast?_eq_none_iff] at hcl; simp [hcl] at hc1
          | some y =>
            rw [hcl] at hx
            simp at hx; subst hx
            exact (hhex y (List.mem_of_getLast? hcl)).2.2.2.2.1)
      unfold strip at this
      rw [hls] at this
      exact this
    simp only
    rw [hrs]
    have htabs : tabs (latin1Dec (b0 :: nt ++ List.replicate k 0x20 ++ crc)) =
        latin1 (b0 :: nt) ++ List.replicate k 0x20 ++ latin1 crc := by
      have hid : ∀ l : Str, 9 ∉ l → tabs l = l := by
        intro l hl
        unfold tabs
        induction l with
        | nil => rfl
        | cons c l ih =>
          rw [List.flatMap_cons, if_neg (fun h => hl (by simp [h])), ih (fun h => hl (by simp [h]))]
          rfl
      have he : latin1Dec (b0 :: nt ++ List.replicate k 0x20 ++ crc) =
          latin1 (b0 :: nt) ++ List.replicate k 0x20 ++ latin1 crc := by
        simp [latin1Dec, latin1]
      rw [he]
      apply hid
      intro h
      simp only [List.mem_append, List.mem_replicate, latin1, List.mem_map] at h
      rcases h with (⟨b, h, h'⟩ | h) | ⟨b, h, h'⟩
      · exact (hb b h).2.2 (UInt8.toNat_inj.mp h')
      · omega
      · exact (hhex b h).1 h'
    unfold sfvEntryOf
    rw [htabs]
    simp only
    obtain ⟨k, rfl⟩ : ∃ j, k = j + 1 := ⟨k - 1, by omega⟩
    have hsp : latin1 (b0 :: nt) ++ List.replicate (k + 1) 0x20 ++ latin1 crc =
        (latin1 (b0 :: nt) ++ List.replicate k 0x20) ++ 0x20 :: latin1 crc := by
      simp [List.replicate_succ']
    have hcs : 0x20 ∉ latin1 crc := by
      simp only [latin1, List.mem_map, not_exists, not_and]
      intro b h; exact (hhex b h).2.2.2.1
    rw [hsp, rsplit_last hcs]
    simp only
    have hname : strip l1Space (latin1 (b0 :: nt) ++ List.replicate k 0x20) = latin1 (b0 :: nt) := by
      have hl1 : ∀ {b : UInt8}, ¬ TextSpace b.toNat → l1Space b.toNat = false := by
        intro b h
        unfold TextSpace at h
        unfold l1Space
        simp; omega
      have hst : strip l1Space (latin1 (b0 :: nt)) = latin1 (b0 :: nt) := by
        apply strip_id
        · intro x hx; simp [latin1] at hx; subst hx; exact hl1 (hh b0 rfl).1
        · intro x hx
          unfold latin1 at hx
          rw [List.getLast?_map, Option.map_eq_some_iff] at hx
          obtain ⟨b, hb', rfl⟩ := hx
          exact hl1 (ht b hb').1
      have hlst : ∀ t : Str, lstrip l1Space (latin1 (b0 :: nt) ++ t) = latin1 (b0 :: nt) ++ t := by
        intro t
        unfold lstrip latin1
        rw [List.map_cons, List.cons_append, List.dropWhile_cons, if_neg (by simp [hl1 (hh b0 rfl).1])]
      unfold strip at hst ⊢
      rw [hlst]
      have := hlst []
      simp only [List.append_nil] at this
      rw [this] at hst
      unfold rstrip at hst ⊢
      rw [List.reverse_append, List.reverse_replicate, List.dropWhile_append_of_pos (by
        intro c hc; rw [(List.mem_replicate.mp hc).2]; rfl)]
      exact hst
    have hcrc : lstrip l1Space (latin1 crc) = latin1 crc := by
      cases crc with
      | nil => rfl
      | cons c t =>
        unfold lstrip latin1
        rw [List.map_cons, List.dropWhile_cons, if_neg (by simp [(hhex c (by simp)).2.2.2.2.2])]
    rw [hname, hcrc]
    unfold mkSfvEntry
    have hlen : (latin1 crc).length = crc.length := by simp [latin1]
    rw [if_pos]
    · have hq : strip (· == 0x22) (latin1 (b0 :: nt)) = latin1 (b0 :: nt) := by
        apply strip_id
        · intro x hx; simp [latin1] at hx; subst hx
          rw [beq_eq_false_iff_ne]
          intro h; exact (hh b0 rfl).2.1 (UInt8.toNat_inj.mp h)
        · intro x hx
          unfold latin1 at hx
          rw [List.getLast?_map, Option.map_eq_some_iff] at hx
          obtain ⟨b, hb', rfl⟩ := hx
          rw [beq_eq_false_iff_ne]
          intro h; exact (ht b hb').2 (UInt8.toNat_inj.mp h)
      rw [hq, hlen]
      rfl
    · refine ⟨by omega, by omega, ?_⟩
      rw [List.all_eq_true]
      intro x hx
      simp only [latin1, List.mem_map] at hx
      obtain ⟨b, hb', rfl⟩ := hx
      exact hexDigit_iff.mpr (hc b hb')
  · rw [hls]
    simp only [List.cons_append, List.head?_cons, Option.some.injEq]
    exact (hh b0 rfl).2.2
  · intro h
    rw [strip_nil] at h
    have := h b0 (by simp)
    rw [h0] at this
    simp at this

/-- C25: an entry need not have a file name: a space in front of a checksum is enough. -/
theorem sfv_empty_name : parseSfvData (0x20 :: [0x31, 0x32]) =
    { entries := [⟨[], str "00000012"⟩] } := by decide

example : parseSfvData [0x61, 0x3B, 0x20, 0x62, 0x20, 0x20, 0x31, 0x66] =
    { entries := [⟨str "a; b", str "0000001f"⟩] } := by decide

/-! ### C26 -/

/-- The last four characters of a name. -/
def extOf (s : Str) : Str := s.drop (s.length - 4)

/-- What is in front of them. -/
def baseOf (s : Str) : Str := s.take (s.length - 4)

/-- What is assumed about `str.lower`: ASCII text is lowered character by character. -/
def LowerAscii (lower : Str → Str) : Prop := ∀ t : Str, (∀ c ∈ t, c < 128) → lower t = t.map lowerA

/-- `a` is a name in `.rar` and `b` one with the same base in `.r00` to `.z99`, up to case.
(Python's `$` lets a newline pass at the end.) -/
def RarThenVolume (lower : Str → Str) (dig : Nat → Bool) (a b : Str) : Prop :=
  lower (baseOf a) = lower (baseOf b) ∧ lower (extOf a) = str ".rar" ∧
    ∃ l x y t, lower (extOf b) = [0x2E, l, x, y] ++ t ∧ 'r'.toNat ≤ l ∧ l ≤ 'z'.toNat ∧
      dig x = true ∧ dig y = true ∧ (t = [] ∨ t = [0x0A])

theorem vol_iff {dig : Nat → Bool} {e : Str} :
    (Rx.seq (.cls (· == 0x2E)) (.seq (.cls rxRz) (.seq (.cls dig) (.seq (.cls dig) .eos)))).test e = true ↔
      ∃ l x y t, e = [0x2E, l, x, y] ++ t ∧ 'r'.toNat ≤ l ∧ l ≤ 'z'.toNat ∧ dig x = true ∧ dig y = true ∧
        (t = [] ∨ t = [0x0A]) := by
  rw [test_iff]
  constructor
  · rintro ⟨z, h⟩
    rw [mem_seq] at h
    obtain ⟨w, h1, h⟩ := h
    obtain ⟨c, t, rfl, hc, rfl⟩ := mem_cls.mp h1
    obtain ⟨w, h1, h⟩ := mem_seq.mp h
    obtain ⟨l, t, rfl, hl, rfl⟩ := mem_cls.mp h1
    obtain ⟨w, h1, h⟩ := mem_seq.mp h
    obtain ⟨x, t, rfl, hx, rfl⟩ := mem_cls.mp h1
    obtain ⟨w, h1, h⟩ := mem_seq.mp h
    obtain ⟨y, t, rfl, hy, rfl⟩ := mem_cls.mp h1
    obtain ⟨ht, -⟩ := mem_eos.mp h
    have hc' : c = 0x2E := by simpa using hc
    subst hc'
    have hl' : 0x72 ≤ l ∧ l ≤ 0x7A := by simpa [rxRz] using hl
    exact ⟨l, x, y, t, rfl, hl'.1, hl'.2, hx, hy, ht⟩
  · rintro ⟨l, x, y, t, rfl, h1, h2, hx, hy, ht⟩
    have hl : rxRz l = true := by
      unfold rxRz
      rw [show 'r'.toNat = 0x72 from rfl] at h1
      rw [show 'z'.toNat = 0x7A from rfl] at h2
      simp; omega
    refine ⟨([y, x, l, 0x2E], t), mem_seq.mpr ⟨([0x2E], [l, x, y] ++ t), mem_cls.mpr ⟨0x2E, _, rfl, rfl, rfl⟩, ?_⟩⟩
    refine mem_seq.mpr ⟨([l, 0x2E], [x, y] ++ t), mem_cls.mpr ⟨l, _, rfl, hl, rfl⟩, ?_⟩
    refine mem_seq.mpr ⟨([x, l, 0x2E], [y] ++ t), mem_cls.mpr ⟨x, _, rfl, hx, rfl⟩, ?_⟩
    refine mem_seq.mpr ⟨([y, x, l, 0x2E], t), mem_cls.mpr ⟨y, _, rfl, hy, rfl⟩, ?_⟩
    exact mem_eos.mpr ⟨ht, rfl⟩

instance (lower : Str → Str) (dig : Nat → Bool) (a b : Str) : Decidable (RarThenVolume lower dig a b) :=
  decidable_of_iff (lower (baseOf a) = lower (baseOf b) ∧ lower (extOf a) = str ".rar" ∧
    (Rx.seq (.cls (· == 0x2E)) (.seq (.cls rxRz) (.seq (.cls dig) (.seq (.cls dig) .eos)))).test (lower (extOf b)) = true)
    (by rw [vol_iff]; rfl)

/-- The digits are not letters. -/
def DigNoRar (dig : Nat → Bool) : Prop := dig 'a'.toNat = false

theorem not_both {lower : Str → Str} {dig : Nat → Bool} (hd : DigNoRar dig) {a : Str}
    (h : lower (extOf a) = str ".rar") : ∀ b, ¬ RarThenVolume lower dig b a := by
  rintro b ⟨_, _, l, x, y, t, h2, _, _, hx, _⟩
  rw [h] at h2
  simp [str] at h2
  obtain ⟨_, rfl, _⟩ := h2
  unfold DigNoRar at hd
  rw [show 'a'.toNat = 97 from rfl] at hd
  rw [hd] at hx; simp at hx

/-- C26: how two entries compare: a `.rar` comes before the old style volumes of the same
name, all else goes by code points. -/
theorem sfv_lt_iff (lower : Str → Str) (dig : Nat → Bool) (hd : DigNoRar dig) (a b : SfvEntry) :
    sfvLt lower dig a b = true ↔ RarThenVolume lower dig a.fileName b.fileName ∨
      (¬ RarThenVolume lower dig b.fileName a.fileName ∧ a.fileName < b.fileName) := by
  unfold sfvLt
  simp only
  have hv : ∀ e, (Rx.seq (.cls (· == 0x2E)) (.seq (.cls rxRz) (.seq (.cls dig) (.seq (.cls dig) .eos)))).test e = true → e ≠ str ".rar" := by
    intro e h h2
    obtain ⟨l, x, y, t, h, _, _, hx, _⟩ := vol_iff.mp h
    rw [h2] at h
    simp [str] at h
    obtain ⟨_, rfl, _⟩ := h
    unfold DigNoRar at hd
    rw [show 'a'.toNat = 97 from rfl] at hd
    rw [hd] at hx; simp at hx
  have hab : RarThenVolume lower dig a.fileName b.fileName ↔ lower (baseOf a.fileName) = lower (baseOf b.fileName) ∧
      lower (extOf a.fileName) = str ".rar" ∧
      (Rx.seq (.cls (· == 0x2E)) (.seq (.cls rxRz) (.seq (.cls dig) (.seq (.cls dig) .eos)))).test (lower (extOf b.fileName)) = true := by
    rw [vol_iff]; rfl
  have hba : RarThenVolume lower dig b.fileName a.fileName ↔ lower (baseOf b.fileName) = lower (baseOf a.fileName) ∧
      lower (extOf b.fileName) = str ".rar" ∧
      (Rx.seq (.cls (· == 0x2E)) (.seq (.cls rxRz) (.seq (.cls dig) (.seq (.cls dig) .eos)))).test (lower (extOf a.fileName)) = true := by
    rw [vol_iff]; rfl
  rw [hab, hba]
  unfold baseOf extOf
  generalize a.fileName.drop (a.fileName.length - 4) = ea
  generalize b.fileName.drop (b.fileName.length - 4) = eb
  generalize a.fileName.take (a.fileName.length - 4) = ba
  generalize b.fileName.take (b.fileName.length - 4) = bb
  generalize (Rx.seq (.cls (· == 0x2E)) (.seq (.cls rxRz) (.seq (.cls dig) (.seq (.cls dig) .eos)))).test = vol at hv ⊢
  by_cases h1 : lower ba = lower bb
  · by_cases h2 : lower ea = lower eb
    · rw [if_neg (by simp [h2])]
      have n1 : ¬ (lower ea = str ".rar" ∧ vol (lower eb) = true) := fun h => hv _ (h2 ▸ h.2) h.1
      have n2 : ¬ (lower eb = str ".rar" ∧ vol (lower ea) = true) := fun h => hv _ (h2 ▸ h.2) h.1
      simp only [decide_eq_true_eq]
      constructor
      · intro h; exact Or.inr ⟨fun h' => n2 h'.2, h⟩
      · rintro (h | h)
        · exact absurd h.2 n1
        · exact h.2
    · rw [if_pos (by simp [h1, h2])]
      by_cases h3 : lower ea = str ".rar"
      · rw [if_pos h3]
        have n2 : ¬ vol (lower ea) = true := fun h => hv _ h h3
        by_cases h4 : vol (lower eb) = true
        · simp [h1, h3, h4]
        · simp [h3, h4]
          intro _ _ _
          rw [← h3]; simpa using n2
      · rw [if_neg h3]
        by_cases h5 : lower eb = str ".rar"
        · rw [if_pos h5]
          by_cases h4 : vol (lower ea) = true
          · simp [h1, h3, h4, h5]
          · simp [h3, h4]
        · rw [if_neg h5]
          simp [h3, h5]
  · rw [if_neg (by simp [h1])]
    simp [h1, Ne.symm h1]

/-- C26: no entry comes before itself. -/
theorem sfv_lt_irrefl (lower : Str → Str) (dig : Nat → Bool) (hd : DigNoRar dig) (a : SfvEntry) :
    sfvLt lower dig a a = false := by
  rw [Bool.eq_false_iff]
  intro h
  rcases (sfv_lt_iff lower dig hd a a).mp h with h | h
  · exact not_both hd h.2.1 _ h
  · exact absurd h.2 (List.lt_irrefl _)

/-- C26: of two entries with different names, exactly one comes first. -/
theorem sfv_lt_total (lower : Str → Str) (dig : Nat → Bool) (hd : DigNoRar dig) (a b : SfvEntry)
    (hne : a.fileName ≠ b.fileName) :
    (sfvLt lower dig a b = true ↔ sfvLt lower dig b a = false) := by
  rw [← Bool.not_eq_true, sfv_lt_iff lower dig hd, sfv_lt_iff lower dig hd]
  have h1 : RarThenVolume lower dig a.fileName b.fileName → ¬ RarThenVolume lower dig b.fileName a.fileName :=
    fun h => not_both hd h.2.1 _
  have h2 : a.fileName < b.fileName → ¬ b.fileName < a.fileName := fun h => List.lt_asymm h
  have h3 : ¬ a.fileName < b.fileName → b.fileName < a.fileName := by
    intro h
    rcases Std.lt_trichotomy a.fileName b.fileName with h' | h' | h'
    · exact absurd h' h
    · exact absurd h' hne
    · exact h'
  constructor
  · rintro (h | h) (h' | h')
    · exact h1 h h'
    · exact h'.1 h
    · exact h.1 h'
    · exact h2 h.2 h'.2
  · intro h
    by_cases g1 : RarThenVolume lower dig a.fileName b.fileName
    · exact Or.inl g1
    · by_cases g2 : RarThenVolume lower dig b.fileName a.fileName
      · exact absurd (Or.inl g2) h
      · refine Or.inr ⟨g2, ?_⟩
        by_cases g3 : a.fileName < b.fileName
        · exact g3
        · exact absurd (Or.inr ⟨g1, h3 g3⟩) h

/-- Nothing but other volumes lies, by code points, between the volumes of a set and its `.rar`. -/
def NothingBetween (lower : Str → Str) (dig : Nat → Bool) (l : List SfvEntry) : Prop :=
  ∀ a ∈ l, ∀ b ∈ l, ∀ c ∈ l, RarThenVolume lower dig a.fileName b.fileName → b.fileName < c.fileName →
    c.fileName < a.fileName → RarThenVolume lower dig a.fileName c.fileName

/-- C26, as far as it holds: on a list where nothing but volumes lies between volumes and
their `.rar`, the order is transitive.  In general it is not: `sfv_lt_cycle`. -/
theorem sfv_lt_trans_partial (lower : Str → Str) (dig : Nat → Bool) (hd : DigNoRar dig) (l : List SfvEntry)
    (hl : NothingBetween lower dig l) (a b c : SfvEntry) (ha : a ∈ l) (hb : b ∈ l) (hc : c ∈ l)
    (hab : sfvLt lower dig a b = true) (hbc : sfvLt lower dig b c = true) : sfvLt lower dig a c = true := by
  rw [sfv_lt_iff lower dig hd] at *
  have nb : ∀ {x y z : Str}, RarThenVolume lower dig x y → ¬ RarThenVolume lower dig y z := by
    intro x y z h h'
    exact not_both hd h'.2.1 _ h
  rcases hab with hab | ⟨hab1, hab2⟩
  · rcases hbc with hbc | ⟨hbc1, hbc2⟩
    · exact absurd hbc (nb hab)
    · rcases Std.lt_trichotomy a.fileName c.fileName with h | h | h
      · exact Or.inr ⟨fun h' => nb h' hab, h⟩
      · rw [h] at hab; exact absurd hab hbc1
      · exact Or.inl (hl a ha b hb c hc hab hbc2 h)
  · rcases hbc with hbc | ⟨hbc1, hbc2⟩
    · rcases Std.lt_trichotomy a.fileName c.fileName with h | h | h
      · exact Or.inr ⟨fun h' => nb hbc h', h⟩
      · rw [← h] at hbc; exact absurd hbc hab1
      · exact absurd (hl b hb c hc a ha hbc h hab2) hab1
    · refine Or.inr ⟨fun h => hbc1 (hl c hc a ha b hb h hab2 hbc2), List.lt_trans hab2 hbc2⟩

/-- C26: the order is not transitive: these three names each come before the next, and the
last before the first.  Which of them ends up first depends on how the SFV lists them. -/
theorem sfv_lt_cycle :
    let e := fun s => (⟨str s, str "00000000"⟩ : SfvEntry)
    sfvLt lowerStr asciiDig (e "x.rar") (e "x.r00") = true ∧ sfvLt lowerStr asciiDig (e "x.r00") (e "x.r0a") = true ∧
      sfvLt lowerStr asciiDig (e "x.r0a") (e "x.rar") = true := by decide

/-- The hypothesis of `sfv_lt_trans_partial` is met by a set of volumes with other files. -/
example : NothingBetween lowerStr asciiDig
    [⟨str "x.r00", []⟩, ⟨str "x.r01", []⟩, ⟨str "x.rar", []⟩, ⟨str "y.rar", []⟩, ⟨str "x.nfo", []⟩] := by
  unfold NothingBetween; decide +kernel

theorem lt_prefix {p a b : Str} : p ++ a < p ++ b ↔ a < b := by
  induction p with
  | nil => simp
  | cons c p ih => simp [List.cons_lt_cons_iff, ih]

theorem lt_suffix {a b s : Str} (h : a.length = b.length) : a ++ s < b ++ s ↔ a < b := by
  induction a generalizing b with
  | nil => cases b with
    | nil => simp [List.lt_irrefl]
    | cons _ _ => simp at h
  | cons c a ih => cases b with
    | nil => simp at h
    | cons d b =>
      simp only [List.cons_append, List.cons_lt_cons_iff]
      rw [ih (by simpa using h)]

theorem digits_lt {w m n : Nat} (hm : m < 10 ^ w) (hn : n < 10 ^ w) : digits w m < digits w n ↔ m < n := by
  induction w generalizing m n with
  | zero => simp at hm hn; subst hm; subst hn; simp [digits]
  | succ w ih =>
    have hm' : m / 10 < 10 ^ w := by rw [Nat.pow_succ] at hm; omega
    have hn' : n / 10 < 10 ^ w := by rw [Nat.pow_succ] at hn; omega
    unfold digits
    by_cases h : m / 10 = n / 10
    · rw [h, lt_prefix, List.cons_lt_cons_iff]
      simp
      omega
    · have key : ∀ {a b : Str} {x y : Str}, a.length = b.length → a ≠ b → (a ++ x < b ++ y ↔ a < b) := by
        intro a
        induction a with
        | nil => intro b x y hl hne; cases b with
          | nil => exact absurd rfl hne
          | cons _ _ => simp at hl
        | cons c a iha =>
          intro b x y hl hne
          cases b with
          | nil => simp at hl
          | cons d b =>
            simp only [List.cons_append, List.cons_lt_cons_iff]
            by_cases hcd : c = d
            · subst hcd
              have : a ≠ b := fun h => hne (by rw [h])
              rw [iha (by simpa using hl) this]
            · simp [hcd]
      rw [key (by simp [digits_length]) (fun he => h (digits_inj hm' hn' he)), ih hm' hn']
      omega

theorem ext_append {b e : Str} (h : e.length = 4) : extOf (b ++ e) = e ∧ baseOf (b ++ e) = b := by
  unfold extOf baseOf
  have : (b ++ e).length - 4 = b.length := by simp [h]
  rw [this]; simp

theorem new_lt {base : Str} {w i j : Nat} (hi : i < 10 ^ w) (hj : j < 10 ^ w) :
    newVol base w i < newVol base w j ↔ i < j := by
  unfold newVol
  rw [lt_suffix (by simp [digits_length]), lt_prefix, digits_lt hi hj]

/-- C26: new style volumes are in the order of their numbers. -/
theorem sfv_new_volumes (lower : Str → Str) (dig : Nat → Bool) (hd : DigNoRar dig) (hl : LowerAscii lower)
    (base crc crc' : Str) (w i j : Nat) (hi : i < 10 ^ w) (hj : j < 10 ^ w) :
    sfvLt lower dig ⟨newVol base w i, crc⟩ ⟨newVol base w j, crc'⟩ = true ↔ i < j := by
  rw [sfv_lt_iff lower dig hd]
  have he : ∀ i, lower (extOf (newVol base w i)) = str ".rar" := by
    intro i
    unfold newVol
    rw [(ext_append (by rfl)).1, hl _ (by decide)]
    rfl
  have hn : ∀ i j, ¬ RarThenVolume lower dig (newVol base w i) (newVol base w j) :=
    fun i j => not_both hd (he j) _
  simp only [hn, not_false_iff, true_and, false_or]
  exact new_lt hi hj

/-- C26: old style volumes are in the order `.rar`, `.r00` ... `.r99`, `.s00` ... `.z99`. -/
theorem sfv_old_volumes (lower : Str → Str) (dig : Nat → Bool) (hd : DigOk dig) (hl : LowerAscii lower)
    (base crc crc' : Str) (i j : Nat) (hi : i ≤ 900) (hj : j ≤ 900) :
    sfvLt lower dig ⟨oldVol base i, crc⟩ ⟨oldVol base j, crc'⟩ = true ↔ i < j := by
  have hd0 : DigNoRar dig := by
    unfold DigNoRar
    rw [Bool.eq_false_iff]
    intro h
    have := (hd _ (by decide)).mp h
    revert this; decide
  rw [sfv_lt_iff lower dig hd0]
  have hrar : extOf (oldVol base 0) = str ".rar" ∧ baseOf (oldVol base 0) = base := ext_append rfl
  have hvol : ∀ k, extOf (oldVol base (k + 1)) = [0x2E, 'r'.toNat + k / 100] ++ digits 2 k ∧ baseOf (oldVol base (k + 1)) = base := by
    intro k
    have : oldVol base (k + 1) = base ++ ([0x2E, 'r'.toNat + k / 100] ++ digits 2 k) := by
      simp [oldVol]; rfl
    rw [this]
    exact ext_append (by simp [digits_length])
  have hfst : ∀ k, k < 900 → RarThenVolume lower dig (oldVol base 0) (oldVol base (k + 1)) := by
    intro k hk
    refine ⟨by rw [hrar.2, (hvol k).2], by rw [hrar.1, hl _ (by decide)]; rfl, 'r'.toNat + k / 100,
      '0'.toNat + k / 10 % 10, '0'.toNat + k % 10, [], ?_, by omega, ?_, ?_, ?_, Or.inl rfl⟩
    · rw [(hvol k).1, hl]
      · simp [digits, lowerA]
        omega
      · simp [digits]; omega
    · show 114 + k / 100 ≤ 122; omega
    · rw [hd _ (by simp; omega)]; simp; omega
    · rw [hd _ (by simp; omega)]; simp; omega
  have hnot : ∀ k x, k < 900 → ¬ RarThenVolume lower dig (oldVol base (k + 1)) x := by
    rintro k x hk ⟨_, h, _⟩
    rw [(hvol k).1, hl _ (by simp [digits]; omega)] at h
    have h2 := congrArg (fun l => l[2]?) h
    simp [digits, str, lowerA] at h2
    split at h2 <;> omega
  cases i with
  | zero =>
    cases j with
    | zero =>
      simp only [Nat.lt_irrefl, iff_false, not_or, not_and]
      refine ⟨fun h => not_both hd0 h.2.1 _ h, fun _ => List.lt_irrefl _⟩
    | succ j => simp only [hfst j (by omega), true_or, Nat.zero_lt_succ]
  | succ i =>
    cases j with
    | zero => simp [hnot i _ (by omega), hfst i (by omega)]
    | succ j =>
      simp only [hnot i _ (by omega), hnot j _ (by omega), not_false_iff, true_and, false_or]
      have hd2 : ∀ k, digits 2 k = digits 2 (k % 100) := by
        intro k; simp [digits]; omega
      simp only [oldVol]
      rw [List.append_assoc, List.append_assoc (base ++ str "."), lt_prefix, List.singleton_append, List.singleton_append,
        List.cons_lt_cons_iff, hd2 i, hd2 j, digits_lt (by omega) (by omega)]
      omega

/-! ### C54 -/

/-- Two entries say the same, up to case. -/
def SameEntry (lower : Str → Str) (a b : SfvEntry) : Prop :=
  lower a.fileName = lower b.fileName ∧ lower a.crc = lower b.crc

theorem sfvEq_iff {lower : Str → Str} {a b : SfvEntry} : sfvEq lower a b = true ↔ SameEntry lower a b := by
  simp [sfvEq, SameEntry]

theorem dupLoop_sub (lower : Str → Str) (l : List SfvEntry) : ∀ p, (sfvDupLoop lower p l).Sublist l := by
  induction l with
  | nil => intro p; exact List.Sublist.refl _
  | cons e l ih =>
    intro p
    rw [sfvDupLoop]
    split
    · exact (ih _).cons_cons e
    · exact (ih _).cons e

theorem dupLoop_covers (lower : Str → Str) (l : List SfvEntry) : ∀ p e, e ∈ l →
    (∃ q, p = some q ∧ SameEntry lower e q) ∨ ∃ r ∈ sfvDupLoop lower p l, SameEntry lower e r := by
  induction l with
  | nil => intro p e h; simp at h
  | cons x l ih =>
    intro p e h
    have hx : (∃ q, p = some q ∧ SameEntry lower x q) ∨ ∃ r ∈ sfvDupLoop lower p (x :: l), SameEntry lower x r := by
      rw [sfvDupLoop]
      split
      · exact Or.inr ⟨x, by simp, rfl, rfl⟩
      · rename_i hn
        cases p with
        | none => simp [sfvKeep] at hn
        | some q => exact Or.inl ⟨q, rfl, sfvEq_iff.mp (by simpa [sfvKeep] using hn)⟩
    rcases List.mem_cons.mp h with rfl | h
    · exact hx
    · rcases ih (some x) e h with ⟨q, hq, hs⟩ | ⟨r, hr, hs⟩
      · simp at hq; subst hq
        rcases hx with ⟨q, rfl, hs'⟩ | ⟨r, hr, hs'⟩
        · exact Or.inl ⟨q, rfl, hs.1.trans hs'.1, hs.2.trans hs'.2⟩
        · exact Or.inr ⟨r, hr, hs.1.trans hs'.1, hs.2.trans hs'.2⟩
      · refine Or.inr ⟨r, ?_, hs⟩
        rw [sfvDupLoop]
        split
        · exact List.mem_cons_of_mem _ hr
        · exact hr

/-- C54: removing duplicates invents no entry, lists none more often than it was, and loses
none: whatever was in the list is still there, up to case. -/
theorem sfv_duplicates_only (lower : Str → Str) (sort : List SfvEntry → List SfvEntry) (hs : ∀ l, (sort l).Perm l)
    (l : List SfvEntry) :
    (∀ e, (filterSfvDuplicates lower sort l).count e ≤ l.count e) ∧
    ∀ e ∈ l, ∃ r ∈ filterSfvDuplicates lower sort l, SameEntry lower e r := by
  constructor
  · intro e
    have := (dupLoop_sub lower (sort l) none).count_le e
    rw [(hs l).count_eq e] at this
    exact this
  · intro e he
    rcases dupLoop_covers lower (sort l) none e ((hs l).mem_iff.mpr he) with ⟨q, hq, _⟩ | h
    · simp at hq
    · exact h

theorem dupLoop_head (lower : Str → Str) (l : List SfvEntry) : ∀ p, 
    (∀ q r, p = some q → (sfvDupLoop lower p l).head? = some r → ¬ SameEntry lower r q) := by
  induction l with
  | nil => intro p q r _ h; simp [sfvDupLoop] at h
  | cons x l ih =>
    rintro _ q r rfl h
    rw [sfvDupLoop] at h
    split at h
    · rename_i hq
      simp at h; subst h
      intro hs
      simp [sfvKeep, sfvEq_iff.mpr hs] at hq
    · rename_i hq
      intro hs
      have hxq : SameEntry lower x q := sfvEq_iff.mp (by simpa [sfvKeep] using hq)
      exact ih (some x) x r rfl h ⟨hs.1.trans hxq.1.symm, hs.2.trans hxq.2.symm⟩

/-- No two neighbours say the same. -/
inductive Apart (lower : Str → Str) : List SfvEntry → Prop
  | nil : Apart lower []
  | one (a : SfvEntry) : Apart lower [a]
  | more (a b : SfvEntry) (l : List SfvEntry) : ¬ SameEntry lower b a → Apart lower (b :: l) → Apart lower (a :: b :: l)

/-- C54, as far as it holds: in the result no two neighbours say the same.  Entries that
differ in case can still both be there: `sfv_duplicates_left`. -/
theorem sfv_duplicates_removed_partial (lower : Str → Str) (sort : List SfvEntry → List SfvEntry) (l : List SfvEntry) :
    Apart lower (filterSfvDuplicates lower sort l) := by
  unfold filterSfvDuplicates
  generalize sort l = l
  generalize (none : Option SfvEntry) = p
  induction l generalizing p with
  | nil => exact .nil
  | cons x l ih =>
    rw [sfvDupLoop]
    split
    · cases h : sfvDupLoop lower (some x) l with
      | nil => exact .one x
      | cons y t =>
        refine .more x y t ?_ (h ▸ ih (some x))
        exact dupLoop_head lower l (some x) x y rfl (by rw [h]; rfl)
    · exact ih _

/-- C54: duplicates that differ in case stay when another name sorts between them. -/
theorem sfv_duplicates_left :
    let e := fun s => (⟨str s, str "00000000"⟩ : SfvEntry)
    let l := [e "A.rar", e "B.rar", e "a.rar"]
    l.Pairwise (fun a b => sfvLt lowerStr asciiDig a b = true) ∧ filterSfvDuplicates lowerStr id l = l := by
  decide

/-- C54: two SFV files that count as the same list the same entries, up to case, each
equally often. -/
theorem same_sfv_sound (lower : Str → Str) (sort : List SfvEntry → List SfvEntry) (hs : ∀ l, (sort l).Perm l)
    (one two : Bytes) (h : sameSfv lower sort one two = true) :
    ((parseSfvData one).entries.map fun e => (lower e.fileName, lower e.crc)).Perm
      ((parseSfvData two).entries.map fun e => (lower e.fileName, lower e.crc)) := by
  unfold sameSfv at h
  simp only [Bool.and_eq_true, beq_iff_eq] at h
  have key : ∀ a b : List SfvEntry, a.length = b.length → ((a.zip b).all fun p => sfvEq lower p.1 p.2) = true →
      (a.map fun e => (lower e.fileName, lower e.crc)) = b.map fun e => (lower e.fileName, lower e.crc) := by
    intro a
    induction a with
    | nil => intro b hl _; cases b with
      | nil => rfl
      | cons _ _ => simp at hl
    | cons x a ih =>
      intro b hl hz
      cases b with
      | nil => simp at hl
      | cons y b =>
        simp only [List.zip_cons_cons, List.all_cons, Bool.and_eq_true] at hz
        obtain ⟨h1, h2⟩ := sfvEq_iff.mp hz.1
        simp only [List.map_cons, h1, h2, ih b (by simpa using hl) hz.2]
  have := key _ _ h.1 h.2
  refine ((hs _).map _).symm.trans ?_
  rw [this]
  exact (hs _).map _

/-- C54: the order of the lines, comments and errors do not matter: with a sort that depends
only on which entries there are, SFV files with the same entries count as the same. -/
theorem same_sfv_complete (lower : Str → Str) (sort : List SfvEntry → List SfvEntry)
    (hs : ∀ l l', l.Perm l' → sort l = sort l') (one two : Bytes)
    (h : (parseSfvData one).entries.Perm (parseSfvData two).entries) : sameSfv lower sort one two = true := by
  unfold sameSfv
  simp only
  rw [hs _ _ h]
  generalize sort _ = a
  simp only [beq_self_eq_true, Bool.true_and, List.all_eq_true]
  intro p hp
  have : p.1 = p.2 := by
    induction a with
    | nil => simp at hp
    | cons x a ih =>
      rw [List.zip_cons_cons, List.mem_cons] at hp
      rcases hp with rfl | hp
      · rfl
      · exact ih hp
  rw [this]
  exact sfvEq_iff.mpr ⟨rfl, rfl⟩

end Rescene.Props
