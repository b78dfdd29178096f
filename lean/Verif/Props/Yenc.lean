import Verif.Model.Yenc
import Verif.Spec.Yenc
/-
C43: yEnc.
-/
namespace Rescene.Props
open Spec

/-- Plain or escaped characters. -/
abbrev YTok := Bool × UInt8
def YTok.text (t : YTok) : Bytes := if t.1 then [61, t.2 + 64] else [t.2]

theorem replace2_toks (i : UInt8) (hi : i + 64 ≠ 61) (toks : List YTok)
    (h : ∀ t ∈ toks, if t.1 then t.2 + 64 ≠ 61 else t.2 ≠ 61) :
    replace2 61 (i + 64) i (toks.flatMap YTok.text) =
      (toks.map fun t => if t.2 = i then (false, t.2) else t).flatMap YTok.text := by
  induction toks with
  | nil => rfl
  | cons t toks ih =>
    have ih' := ih (fun x hx => h x (by simp [hx]))
    have ht := h t (by simp)
    obtain ⟨esc, c⟩ := t
    cases esc with
    | true =>
      simp only [if_true] at ht
      simp only [List.flatMap_cons, List.map_cons, YTok.text, if_true, List.cons_append, List.nil_append]
      rw [replace2]
      by_cases hc : c = i
      · subst hc
        simp only [if_true, and_self, Bool.false_eq_true, if_false, List.cons_append, List.nil_append]
        rw [ih']
      · have : ¬ (c + 64 = i + 64) := fun h => hc ((UInt8.add_left_inj 64).mp h)
        simp only [this, and_false, if_false, hc, if_true, List.cons_append, List.nil_append]
        congr 1
        rw [← ih']
        cases toks.flatMap YTok.text with
        | nil => rfl
        | cons y ys => rw [replace2, if_neg (by simp [ht])]
    | false =>
      simp only [Bool.false_eq_true, if_false] at ht
      have he : (if c = i then ((false, c) : YTok) else (false, c)) = (false, c) := by split <;> rfl
      simp only [List.flatMap_cons, List.map_cons, he]
      rw [← ih']
      simp only [YTok.text, Bool.false_eq_true, if_false, List.cons_append, List.nil_append]
      cases toks.flatMap YTok.text with
      | nil => rfl
      | cons y ys => rw [replace2, if_neg (by simp [ht])]

theorem fold_toks (l : List UInt8) : ∀ (toks : List YTok), (∀ i ∈ l, i ≠ 61 ∧ i + 64 ≠ 61) →
    (∀ t ∈ toks, if t.1 then t.2 + 64 ≠ 61 else t.2 ≠ 61) →
    l.foldl (fun d i => replace2 61 (i + 64) i d) (toks.flatMap YTok.text) =
      (toks.map fun t => if t.2 ∈ l then (false, t.2) else t).flatMap YTok.text ∧
    ∀ t ∈ toks.map (fun t => if t.2 ∈ l then ((false, t.2) : YTok) else t), if t.1 then t.2 + 64 ≠ 61 else t.2 ≠ 61 := by
  induction l with
  | nil => intro toks _ h; simpa using h
  | cons i l ih =>
    intro toks hl h
    have hi := hl i (by simp)
    rw [List.foldl_cons, replace2_toks i hi.2 toks h]
    have h' : ∀ t ∈ toks.map (fun t => if t.2 = i then ((false, t.2) : YTok) else t), if t.1 then t.2 + 64 ≠ 61 else t.2 ≠ 61 := by
      intro t ht
      obtain ⟨t0, h0, rfl⟩ := List.mem_map.mp ht
      by_cases hc : t0.2 = i
      · simp [hc, hi.1]
      · simp only [hc, if_false]; exact h t0 h0
    obtain ⟨h1, h2⟩ := ih _ (fun x hx => hl x (by simp [hx])) h'
    have he : (toks.map (fun t => if t.2 = i then ((false, t.2) : YTok) else t)).map (fun t => if t.2 ∈ l then ((false, t.2) : YTok) else t) =
        toks.map (fun t => if t.2 ∈ i :: l then ((false, t.2) : YTok) else t) := by
      rw [List.map_map]
      apply List.map_congr_left
      intro t _
      simp only [Function.comp]
      by_cases hc : t.2 = i
      · simp [hc]
      · simp [hc]
    rw [he] at h1 h2
    exact ⟨h1, h2⟩

theorem translate_all (data : Bytes) : translate ydecTrans data = data.map (· - 42) := by
  have h : ∀ b : UInt8, ydecTrans[b.toNat]? = some (b - 42) := by
    intro b
    have key : ∀ n : Fin 256, ydecTrans[n.val]? = some (UInt8.ofNat n - 42) := by decide +kernel
    have := key ⟨b.toNat, b.toNat_lt⟩
    simpa using this
  unfold translate
  induction data with
  | nil => rfl
  | cons b data ih => rw [List.filterMap_cons, h b]; simp [ih]

/-- C43: the text is decoded to the data it encodes, whichever critical characters the
encoder chose to escape. -/
theorem yenc_text (data text : Bytes) (h : YEncodes data text) : ydecText text = data := by
  have ht : ∃ toks : List YTok, text = toks.flatMap YTok.text ∧ data = toks.map (fun t => t.2 - 42) ∧
      ∀ t ∈ toks, if t.1 then Critical t.2 else t.2 ≠ 61 := by
    induction h with
    | nil => exact ⟨[], rfl, rfl, by simp⟩
    | plain o data text ho h ih =>
      obtain ⟨toks, rfl, rfl, h3⟩ := ih
      refine ⟨(false, o + 42) :: toks, by simp [YTok.text], by simp, ?_⟩
      intro t ht
      rcases List.mem_cons.mp ht with rfl | ht
      · simpa using ho
      · exact h3 t ht
    | escaped o data text ho h ih =>
      obtain ⟨toks, rfl, rfl, h3⟩ := ih
      refine ⟨(true, o + 42) :: toks, by simp [YTok.text], by simp, ?_⟩
      intro t ht
      rcases List.mem_cons.mp ht with rfl | ht
      · simpa using ho
      · exact h3 t ht
  obtain ⟨toks, rfl, rfl, h3⟩ := ht
  have hcrit : ∀ c : UInt8, Critical c → c + 64 ≠ 61 := by
    intro c hc
    simp only [Critical, List.mem_cons, List.not_mem_nil, or_false] at hc
    rcases hc with rfl | rfl | rfl | rfl | rfl | rfl | rfl | rfl <;> decide
  have h0 : ∀ t ∈ toks, if t.1 then t.2 + 64 ≠ 61 else t.2 ≠ 61 := by
    intro t ht
    have := h3 t ht
    split at this
    · rename_i he; simp only [he, if_true]; exact hcrit _ this
    · rename_i he; simp only [he]; exact this
  obtain ⟨h1, h2⟩ := fold_toks [0, 9, 10, 13, 27, 32, 46] toks (by decide) h0
  unfold ydecText
  rw [show ([0, 9, 10, 13, 27, 32, 46, 61] : List UInt8) = [0, 9, 10, 13, 27, 32, 46] ++ [61] from rfl, List.foldl_append, h1,
    List.foldl_cons, List.foldl_nil, replace2_toks 61 (by decide) _ h2, translate_all, List.map_map]
  have hplain : ∀ toks' : List YTok, (∀ t ∈ toks', t.1 = false) → toks'.flatMap YTok.text = toks'.map (·.2) := by
    intro l
    induction l with
    | nil => intro _; rfl
    | cons t l ih =>
      intro h
      rw [List.flatMap_cons, ih (fun x hx => h x (by simp [hx]))]
      simp [YTok.text, h t (by simp)]
  rw [hplain]
  · rw [List.map_map, List.map_map]
    apply List.map_congr_left
    intro t _
    simp only [Function.comp]
    repeat' split
    all_goals rfl
  · intro t ht
    obtain ⟨t0, h0', rfl⟩ := List.mem_map.mp ht
    have := h3 t0 h0'
    simp only [Function.comp]
    by_cases ha : t0.2 ∈ ([0, 9, 10, 13, 27, 32, 46] : List UInt8)
    · simp only [ha, if_true]; split <;> rfl
    · simp only [ha, if_false]
      by_cases hb : t0.2 = 61
      · simp only [hb, if_true]
      · simp only [hb, if_false]
        cases ht1 : t0.1 with
        | false => rfl
        | true =>
          rw [ht1] at this
          simp only [if_true, Critical] at this
          exfalso
          rw [show ([0, 9, 10, 13, 27, 32, 46, 61] : List UInt8) = [0, 9, 10, 13, 27, 32, 46] ++ [61] from rfl, List.mem_append] at this
          rcases this with h | h
          · exact ha h
          · exact hb (by simpa using h)

/-- `=y` is not the escape of a critical character. -/
theorem yenc_no_keyword (data text : Bytes) (h : YEncodes data text) : ∀ a b : Bytes, text ≠ a ++ 61 :: 121 :: b := by
  induction h with
  | nil => intro a b; simp
  | plain o data text ho h ih =>
    intro a b he
    cases a with
    | nil => simp at he; exact ho he.1
    | cons x a => simp at he; exact ih a b he.2
  | escaped o data text ho h ih =>
    intro a b he
    have hc : o + 42 + 64 ≠ 121 ∧ o + 42 + 64 ≠ 61 := by
      simp only [Critical, List.mem_cons, List.not_mem_nil, or_false] at ho
      rcases ho with h | h | h | h | h | h | h | h <;> rw [h] <;> decide
    cases a with
    | nil => simp at he; exact hc.1 he.1
    | cons x a =>
      simp only [List.cons_append, List.cons.injEq] at he
      cases a with
      | nil => simp at he; exact hc.2 he.2.1
      | cons y a => simp at he; exact ih a b he.2.2

theorem line_no_keyword {data : Bytes} {lines : List Bytes} (h : YEncodes data lines.flatten) (l : Bytes) (hl : l ∈ lines)
    (k : Bytes) (hk : ∃ t, k = 61 :: 121 :: t) : ¬ k <+: l := by
  rintro ⟨r, rfl⟩
  obtain ⟨t, rfl⟩ := hk
  obtain ⟨pre, post, rfl⟩ := List.append_of_mem hl
  refine yenc_no_keyword data _ h pre.flatten (t ++ r ++ post.flatten) ?_
  simp

theorem unstuff (l : Bytes) : (if (str "..").map UInt8.ofNat <+: dotStuffed l then (dotStuffed l).drop 1 else dotStuffed l) = l := by
  have h : ∀ l : Bytes, (str "..").map UInt8.ofNat <+: l ↔ ∃ t, l = 46 :: 46 :: t := by
    intro l
    constructor
    · rintro ⟨t, rfl⟩; exact ⟨t, rfl⟩
    · rintro ⟨t, rfl⟩; exact ⟨t, rfl⟩
  unfold dotStuffed
  cases l with
  | nil => rw [if_neg]; · rfl
           · rw [h]; simp
  | cons c t =>
    by_cases hc : c = 46
    · subst hc
      simp only [List.head?_cons, if_true]
      rw [if_pos ((h _).mpr ⟨t, rfl⟩)]; rfl
    · simp only [List.head?_cons, Option.some.injEq, hc, if_false]
      rw [if_neg]
      rw [h]; rintro ⟨u, hu⟩; simp at hu; exact hc hu.1

/-- A line that begins with `=`. -/
theorem keyword_kept (k l : Bytes) (hk : ∃ t, k = 61 :: t) (hl : k <+: l) :
    (if (str "..").map UInt8.ofNat <+: l then l.drop 1 else l) = l ∧ l.isEmpty = false := by
  obtain ⟨t, rfl⟩ := hk
  obtain ⟨r, rfl⟩ := hl
  refine ⟨?_, rfl⟩
  rw [if_neg]
  rintro ⟨u, hu⟩
  simp [str] at hu

theorem ystrip_article (blank1 blank2 : List Bytes) (first last : Bytes) (mid : List Bytes)
    (h1 : ∀ l ∈ blank1, l = []) (h2 : ∀ l ∈ blank2, l = []) (hf : first.isEmpty = false) (hl : last.isEmpty = false) :
    ystrip (blank1 ++ (first :: mid ++ [last]) ++ blank2) =
      (first :: mid ++ [last]).map fun l => if (str "..").map UInt8.ofNat <+: l then l.drop 1 else l := by
  unfold ystrip
  have e1 : ∀ l ∈ blank1, l.isEmpty = true := fun l hl => by rw [h1 l hl]; rfl
  have e2 : ∀ l ∈ blank2.reverse, l.isEmpty = true := fun l hl => by rw [h2 l (by simpa using hl)]; rfl
  simp only
  rw [List.append_assoc, List.dropWhile_append_of_pos e1]
  rw [List.cons_append, List.cons_append, List.dropWhile_cons, if_neg (by simp [hf])]
  rw [show first :: (mid ++ [last] ++ blank2) = (first :: mid ++ [last]) ++ blank2 by simp, List.reverse_append,
    List.dropWhile_append_of_pos e2, List.reverse_append, List.reverse_singleton, List.singleton_append,
    List.dropWhile_cons, if_neg (by simp [hl])]
  simp

/-- C43, as far as it holds: a posted article (dots doubled, blank lines around it) whose body
encodes the data, in lines of any length, is decoded to the data if the checksum fits.
Encoders may also escape other characters; that is not undone: `yenc_other_escape`. -/
theorem yenc_article_partial (field : Bool → Bytes → Option (BitVec 32)) (data : Bytes) (body blank1 blank2 : List Bytes)
    (ybegin yend : Bytes) (ypart : Option Bytes) (hb : (str "=ybegin ").map UInt8.ofNat <+: ybegin)
    (he : (str "=yend ").map UInt8.ofNat <+: yend) (hp : ∀ p, ypart = some p → (str "=ypart ").map UInt8.ofNat <+: p)
    (h1 : ∀ l ∈ blank1, l = []) (h2 : ∀ l ∈ blank2, l = []) (h : YEncodes data body.flatten) (ignore : Bool)
    (hc : ignore = true ∨ field ypart.isSome yend = some (crc32 data 0)) :
    yenDecode field (blank1 ++ (ybegin :: (ypart.toList ++ body.map dotStuffed) ++ [yend]) ++ blank2) false ignore = .ok data := by
  unfold yenDecode
  have kb := keyword_kept _ ybegin ⟨_, rfl⟩ hb
  have ke := keyword_kept _ yend ⟨_, rfl⟩ he
  have hmap : (ybegin :: (ypart.toList ++ body.map dotStuffed) ++ [yend]).map (fun l => if (str "..").map UInt8.ofNat <+: l then l.drop 1 else l) =
      ybegin :: (ypart.toList ++ body ++ [yend]) := by
    simp only [List.map_append, List.map_cons, List.map_nil, kb.1, ke.1, List.map_map]
    have hbody : body.map ((fun l => if (str "..").map UInt8.ofNat <+: l then l.drop 1 else l) ∘ dotStuffed) = body := by
      conv => rhs; rw [← List.map_id body]
      apply List.map_congr_left
      intro l _
      exact unstuff l
    rw [hbody]
    cases ypart with
    | none => simp
    | some p =>
      have kp := (keyword_kept _ p ⟨_, rfl⟩ (hp p rfl)).1
      simp only [Option.toList_some, List.map_cons, List.map_nil, kp]
      simp
  rw [ystrip_article blank1 blank2 ybegin yend _ h1 h2 kb.2 ke.2, hmap]
  simp only [List.cons_append, reduceCtorEq, if_false]
  have hhead : ∀ all, yhead all 10 (ybegin :: (ypart.toList ++ body ++ [yend])) = some (ybegin, ypart, body ++ [yend]) := by
    intro all
    rw [yhead.eq_def]
    simp only
    rw [if_pos hb]
    cases ypart with
    | some p => simp [hp p rfl]
    | none =>
      have hnp : ∀ l, l ∈ body ++ [yend] → ¬ (str "=ypart ").map UInt8.ofNat <+: l := by
        intro l hl
        rcases List.mem_append.mp hl with hl | hl
        · exact line_no_keyword h l hl _ ⟨_, rfl⟩
        · have := List.mem_singleton.mp hl
          subst this
          obtain ⟨t, rfl⟩ := he
          rintro ⟨u, hu⟩
          simp [str] at hu
      simp only [Option.toList_none, List.nil_append]
      cases hbl : body ++ [yend] with
      | nil => simp at hbl
      | cons p r =>
        simp only
        rw [if_neg (hnp p (by rw [hbl]; simp))]
  rw [hhead]
  simp only [List.reverse_append, List.reverse_singleton, List.singleton_append]
  rw [ytail, if_pos he]
  simp only [List.reverse_reverse]
  rw [yenc_text data _ h]
  rcases hc with rfl | hc
  · simp
  · rw [if_pos hc]; split <;> rfl

/-- C43: a segment without the `=yend` line, when only a part is wanted. -/
theorem yenc_segment_partial (field : Bool → Bytes → Option (BitVec 32)) (data : Bytes) (body blank1 : List Bytes) (last : Bytes)
    (ybegin : Bytes) (hb : (str "=ybegin ").map UInt8.ofNat <+: ybegin) (h1 : ∀ l ∈ blank1, l = [])
    (hl : last ≠ []) (h : YEncodes data (body ++ [last]).flatten) (ignore : Bool) :
    yenDecode field (blank1 ++ (ybegin :: body.map dotStuffed ++ [dotStuffed last])) true ignore = .ok data := by
  unfold yenDecode
  have kb := keyword_kept _ ybegin ⟨_, rfl⟩ hb
  have hls : (dotStuffed last).isEmpty = false := by
    unfold dotStuffed
    cases last with
    | nil => exact absurd rfl hl
    | cons c t => split <;> rfl
  have hs := ystrip_article blank1 [] ybegin (dotStuffed last) (body.map dotStuffed) h1 (by simp) kb.2 hls
  rw [List.append_nil] at hs
  rw [hs]
  have hmap : (ybegin :: body.map dotStuffed ++ [dotStuffed last]).map (fun l => if (str "..").map UInt8.ofNat <+: l then l.drop 1 else l) =
      ybegin :: (body ++ [last]) := by
    simp only [List.map_append, List.map_cons, List.map_nil, kb.1, List.map_map, unstuff, List.cons_append]
    have hbody : body.map ((fun l => if (str "..").map UInt8.ofNat <+: l then l.drop 1 else l) ∘ dotStuffed) = body := by
      conv => rhs; rw [← List.map_id body]
      apply List.map_congr_left
      intro l _
      exact unstuff l
    rw [hbody]
  rw [hmap]
  simp only [reduceCtorEq, if_false]
  have hhead : ∀ all, yhead all 10 (ybegin :: (body ++ [last])) = some (ybegin, none, body ++ [last]) := by
    intro all
    rw [yhead.eq_def]
    simp only
    rw [if_pos hb]
    cases hbl : body ++ [last] with
    | nil => simp at hbl
    | cons p r =>
      simp only
      rw [if_neg (line_no_keyword h p (by rw [hbl]; simp) ((str "=ypart ").map UInt8.ofNat) ⟨_, rfl⟩)]
  have htail : ∀ n (l : List Bytes), (∀ x ∈ l, x ∈ body ++ [last]) → ytail n l = none := by
    intro n
    induction n with
    | zero => intro l _; cases l <;> rfl
    | succ n ih =>
      intro l hl
      cases l with
      | nil => rfl
      | cons x l =>
        rw [ytail, if_neg (line_no_keyword h x (hl x (by simp)) ((str "=yend ").map UInt8.ofNat) ⟨_, rfl⟩)]
        exact ih l (fun y hy => hl y (by simp [hy]))
  rw [hhead]
  simp only
  rw [htail 10 _ (by intro x hx; rw [List.mem_reverse] at hx; exact hx)]
  simp only [if_true]
  rw [yenc_text data _ h]

/-- C43: when the checksum is looked at, whatever is returned has the checksum of the article. -/
theorem yenc_checked (field : Bool → Bytes → Option (BitVec 32)) (lines : List Bytes) (data : Bytes)
    (h : yenDecode field lines false false = .ok data) :
    ∃ isPart yend, (str "=yend ").map UInt8.ofNat <+: yend ∧ field isPart yend = some (crc32 data 0) := by
  have htail : ∀ n l x r, ytail n l = some (x, r) → (str "=yend ").map UInt8.ofNat <+: x := by
    intro n
    induction n with
    | zero => intro l x r h; simp [ytail] at h
    | succ n ih =>
      intro l x r h
      cases l with
      | nil => simp [ytail] at h
      | cons y l =>
        rw [ytail] at h
        split at h
        · rename_i hy; simp at h; rw [← h.1]; exact hy
        · exact ih l x r h
  unfold yenDecode at h
  simp only at h
  split at h
  · simp at h
  · split at h
    · simp at h
    · split at h
      · rename_i ht
        simp only [and_self, if_true] at h
        split at h
        · rename_i hf
          simp at h
          subst h
          exact ⟨_, _, htail _ _ _ _ ht, hf⟩
        · simp at h
      · simp at h

/-- C43: an escape of any other character is not undone, although decoders should: here NUL,
which is `*` after the shift, escaped. -/
theorem yenc_other_escape : ydecText [61, 42 + 64] = [19, 64] := by decide +kernel

/-- An article as in `yenc_article_partial`: NUL and 4 (a dot at the beginning of a line, doubled)
and 19 (`=`, escaped). -/
example : YEncodes [0, 4, 19] [42, 46, 61, 125] :=
  .plain 0 _ _ (by decide) (.plain 4 _ _ (by decide) (.escaped 19 _ _ (by unfold Critical; decide) .nil))

end Rescene.Props
