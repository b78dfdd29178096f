import Verif.Model.Mp3
import Verif.Spec.Mp3
import Verif.Lemmas.Flac
import Verif.Lemmas.Search
import Verif.Lemmas.StreamSrs
/-
Lemmas about the MP3 reader.
-/
namespace Rescene
open Spec

/-- The block of type `ty` for the bytes `x` at `pos`. -/
def mblk (ty : Mp3Type) (x : Bytes) (pos : Nat) : Mp3Block := ⟨x.length, ty, pos⟩

/-- The blocks for consecutive parts of a file. -/
def place : List (Mp3Type × Bytes) → Nat → List Mp3Block
  | [], _ => []
  | (ty, x) :: l, pos => mblk ty x pos :: place l (pos + x.length)

/-- The bytes of consecutive parts. -/
def partBytes (l : List (Mp3Type × Bytes)) : Bytes := (l.map (·.2)).flatten

@[simp] theorem partBytes_nil : partBytes [] = [] := rfl
@[simp] theorem partBytes_cons (p : Mp3Type × Bytes) (l) : partBytes (p :: l) = p.2 ++ partBytes l := rfl
@[simp] theorem partBytes_append (a b : List (Mp3Type × Bytes)) : partBytes (a ++ b) = partBytes a ++ partBytes b := by
  simp [partBytes]

theorem place_append (a b : List (Mp3Type × Bytes)) : ∀ pos,
    place (a ++ b) pos = place a pos ++ place b (pos + (partBytes a).length) := by
  induction a with
  | nil => intro pos; simp [place]
  | cons p a ih => intro pos; simp only [List.cons_append, place, ih, partBytes_cons, List.length_append, Nat.add_assoc]

theorem place_starts (l : List (Mp3Type × Bytes)) : ∀ pos, ∀ b ∈ place l pos, (pos : Int) ≤ b.start := by
  induction l with
  | nil => intro pos b hb; simp [place] at hb
  | cons p l ih =>
    intro pos b hb
    simp only [place, List.mem_cons] at hb
    rcases hb with rfl | hb
    · simp [mblk]
    · have := ih _ b hb; omega

theorem place_sorted (l : List (Mp3Type × Bytes)) (h : ∀ p ∈ l, p.2 ≠ []) : ∀ pos,
    (place l pos).Pairwise (fun a b => a.start < b.start) := by
  induction l with
  | nil => intro pos; simp [place]
  | cons p l ih =>
    intro pos
    simp only [place, List.pairwise_cons]
    refine ⟨fun b hb => ?_, ih (fun q hq => h q (by simp [hq])) _⟩
    have := place_starts l _ b hb
    have h2 : 0 < p.2.length := List.length_pos_iff.2 (h p (by simp))
    simp only [mblk]
    omega

theorem mp3Sort_of_perm {l l' : List Mp3Block} (hp : l.Perm l')
    (hs : l'.Pairwise (fun a b => a.start < b.start)) : mp3Sort l = l' := by
  have hs' : l'.Pairwise (fun a b => a.start ≤ b.start) := hs.imp (fun h => by omega)
  refine List.Perm.eq_of_pairwise (le := fun a b : Mp3Block => a.start ≤ b.start) ?_ ?_ hs' ?_
  · intro a b ha hb h1 h2
    have ha' : a ∈ l' := hp.mem_iff.1 ((List.mergeSort_perm l _).mem_iff.1 ha)
    by_cases hab : a = b
    · exact hab
    · exfalso
      have key : ∀ (m : List Mp3Block), m.Pairwise (fun a b => a.start < b.start) → a ∈ m → b ∈ m →
          a.start = b.start → a = b := by
        intro m
        induction m with
        | nil => intro _ h; simp at h
        | cons c m ih =>
          intro hm h1 h2 he
          rw [List.pairwise_cons] at hm
          simp only [List.mem_cons] at h1 h2
          rcases h1 with rfl | h1 <;> rcases h2 with rfl | h2
          · rfl
          · have := hm.1 b h2; omega
          · have := hm.1 a h1; omega
          · exact ih hm.2 h1 h2 he
      exact hab (key l' hs ha' hb (by omega))
  · have := List.pairwise_mergeSort (le := fun a b : Mp3Block => decide (a.start ≤ b.start))
      (by intro a b c; simp only [decide_eq_true_eq]; omega) (by intro a b; simp only [Bool.or_eq_true, decide_eq_true_eq]; omega) l
    exact this.imp (fun h => by simpa using h)
  · exact (List.mergeSort_perm l _).trans hp

theorem seekRead_nat (file : Bytes) (p n : Nat) : seekRead file p n = .ok (readAt file p n) := by
  unfold seekRead
  rw [if_neg (by omega), if_neg (by omega)]
  rfl

theorem seekRead_int {file : Bytes} {p n : Int} {a b : Nat} (hp : p = a) (hn : n = b) :
    seekRead file p n = .ok (readAt file a b) := by subst hp hn; exact seekRead_nat file a b

/-- The contents of a block. -/
theorem contents_mblk {file pre x post : Bytes} {pos : Nat} {ty : Mp3Type} (hp : pre.length = pos)
    (hf : file = pre ++ (x ++ post)) : mp3Contents file (mblk ty x pos) = .ok x := by
  unfold mp3Contents mblk
  rw [seekRead_nat, hf]
  exact congrArg _ (readAt_append _ _ _ hp rfl)

/-- A loop over consecutive parts. -/
theorem foldlM_place {σ : Type} {file : Bytes} {f : σ → Mp3Block → Res σ} {g : σ → Mp3Type × Bytes → Res σ}
    (h : ∀ s ty pre x post, file = pre ++ (x ++ post) → f s (mblk ty x pre.length) = g s (ty, x))
    (l : List (Mp3Type × Bytes)) : ∀ (pre post : Bytes) (s : σ), file = pre ++ (partBytes l ++ post) →
    (place l pre.length).foldlM f s = l.foldlM g s := by
  induction l with
  | nil => intro pre post s _; rfl
  | cons p l ih =>
    intro pre post s hf
    obtain ⟨ty, x⟩ := p
    have hf1 : file = pre ++ (x ++ (partBytes l ++ post)) := by rw [hf]; simp
    simp only [place, List.foldlM_cons]
    rw [h s ty pre x _ hf1]
    congr 1
    funext s'
    have := ih (pre ++ x) post s' (by rw [hf1]; simp)
    rw [List.length_append] at this
    exact this

/-! ### The tags in front -/

theorem id3_parts {tag : Bytes} (ht : IsId3v2 tag) {pre post : Bytes} {pos : Nat} (hp : pre.length = pos) :
    ∃ n : Nat, tag.length = 10 + n ∧ readAt (pre ++ (tag ++ post)) pos 3 = mID3 ∧
      decodeId3Size (readAt (pre ++ (tag ++ post)) (pos + 6) 4) = .ok n := by
  obtain ⟨v, a, b, c, d, body, hv, ha, hb, hc, hd, hbody, rfl⟩ := ht
  refine ⟨body.length, by simp [hv]; omega, ?_, ?_⟩
  · rw [List.append_assoc]
    exact readAt_append _ _ _ hp rfl
  · have e : pre ++ ([0x49, 0x44, 0x33] ++ (v ++ ([a, b, c, d] ++ body)) ++ post) =
        (pre ++ ([0x49, 0x44, 0x33] ++ v)) ++ ([a, b, c, d] ++ (body ++ post)) := by simp
    rw [e, readAt_append (p := pos + 6) (n := 4) _ [a, b, c, d] _ (by simp [hp, hv]) rfl]
    simp only [decodeId3Size]
    rw [hbody]
    congr 1; omega

theorem mp3Id3s_front {file : Bytes} (front : List Bytes) : ∀ (pre rest : Bytes) (pos fuel : Nat),
    (∀ f ∈ front, IsId3v2 f) → ¬ [0x49, 0x44, 0x33] <+: rest → pre.length = pos →
    file = pre ++ (front.flatten ++ rest) → front.length < fuel →
    mp3Id3s file fuel pos = .ok (place (front.map fun f => (.id3, f)) pos, pos + front.flatten.length) := by
  induction front with
  | nil =>
    intro pre rest pos fuel _ hno hp hf hfuel
    obtain ⟨k, rfl⟩ : ∃ k, fuel = k + 1 := ⟨fuel - 1, by simp at hfuel; omega⟩
    rw [mp3Id3s, if_neg]
    · rfl
    · intro h
      apply hno
      rw [hf] at h
      simp only [List.flatten_nil, List.nil_append] at h
      rw [readAt, ← hp, List.drop_left] at h
      refine ⟨rest.drop 3, ?_⟩
      rw [show ([0x49, 0x44, 0x33] : Bytes) = mID3 from rfl, ← h, List.take_append_drop]
  | cons t front ih =>
    intro pre rest pos fuel hfr hno hp hf hfuel
    obtain ⟨k, rfl⟩ : ∃ k, fuel = k + 1 := ⟨fuel - 1, by simp at hfuel; omega⟩
    have hf1 : file = pre ++ (t ++ (front.flatten ++ rest)) := by rw [hf]; simp
    obtain ⟨n, hn, h1, h2⟩ := id3_parts (hfr t (by simp)) (pre := pre) (post := front.flatten ++ rest) hp
    rw [← hf1] at h1 h2
    rw [mp3Id3s, if_pos h1, h2, ok_bind,
      ih (pre ++ t) rest (pos + (10 + n)) k (fun f hf => hfr f (by simp [hf])) hno (by simp [hp]; omega)
        (by rw [hf1]; simp) (by simp at hfuel; omega), ok_bind]
    simp only [pure_eq_ok, List.map_cons, place, mblk, hn, List.flatten_cons, List.length_append]
    rw [Nat.add_assoc]

/-! ### The tags behind -/

/-- The block of a tag that may be missing. -/
def opt (ty : Mp3Type) (x : Bytes) (pos : Nat) : List Mp3Block := if x = [] then [] else [mblk ty x pos]

theorem v1_step {file rest t : Bytes} (hf : file = rest ++ t) (hl : 128 ≤ file.length)
    (h : IsId3v1 t ∨ (t = [] ∧ ¬ EndsWithTag file)) :
    mp3V1 file = .ok (opt .tag t rest.length, (rest.length : Nat)) := by
  unfold mp3V1
  rw [if_neg (by omega)]
  rcases h with ⟨h1, r, h2⟩ | ⟨h1, h2⟩
  · have hlen : file.length = rest.length + 128 := by rw [hf]; simp [h1]
    rw [if_pos]
    · have hne : t ≠ [] := by intro h; rw [h] at h1; simp at h1
      rw [hlen, Nat.add_sub_cancel]
      simp [opt, hne, mblk, h1]
    · rw [endsWithTag_iff hl]
      refine ⟨rest, r, by rw [hf, ← h2], ?_⟩
      have := congrArg List.length h2
      simp at this; omega
  · rw [if_neg (by rw [endsWithTag_iff hl]; exact h2)]
    subst h1
    simp [opt, hf]

theorem isDig_iff (d : UInt8) : isDig d = true ↔ 48 ≤ d.toNat ∧ d.toNat ≤ 57 := by
  unfold isDig
  rw [Bool.and_eq_true, decide_eq_true_eq, decide_eq_true_eq, UInt8.le_iff_toNat_le, UInt8.le_iff_toNat_le]
  rfl

theorem intDigits_all (ds : Bytes) : ∀ acc, (∀ d ∈ ds, 48 ≤ d.toNat ∧ d.toNat ≤ 57) →
    intDigits acc ds = some (ds.foldl (fun n d => 10 * n + (d.toNat - 48)) acc) := by
  induction ds with
  | nil => intro acc _; rw [intDigits]; rfl
  | cons d ds ih =>
    intro acc h
    rw [intDigits.eq_def]
    dsimp only
    rw [if_pos ((isDig_iff d).2 (h d (by simp))), ih _ (fun x hx => h x (by simp [hx]))]
    rfl

theorem isWs_dig {d : UInt8} (h : 48 ≤ d.toNat ∧ d.toNat ≤ 57) : isWs d = false := by
  unfold isWs
  have h1 : ¬ d ≤ 13 := by rw [UInt8.le_iff_toNat_le]; simp; omega
  have h2 : ¬ d = 32 := by intro h'; subst h'; simp at h
  simp [h1, h2]

theorem dropWhile_digits {ds : Bytes} (h : ∀ d ∈ ds, 48 ≤ d.toNat ∧ d.toNat ≤ 57) : ds.dropWhile isWs = ds := by
  cases ds with
  | nil => rfl
  | cons d ds => simp [isWs_dig (h d (by simp))]

theorem pyInt_digits {ds : Bytes} (hne : ds ≠ []) (h : ∀ d ∈ ds, 48 ≤ d.toNat ∧ d.toNat ≤ 57) :
    pyInt ds = .ok (decimal ds) := by
  unfold pyInt
  rw [dropWhile_digits h, dropWhile_digits (by simpa using h), List.reverse_reverse]
  dsimp only
  obtain ⟨d, r, rfl⟩ : ∃ d r, ds = d :: r := by
    cases ds with
    | nil => exact absurd rfl hne
    | cons d r => exact ⟨d, r, rfl⟩
  have hd := h d (by simp)
  have hu : intUnsigned (d :: r) = some (decimal (d :: r)) := by
    rw [intUnsigned, if_pos ((isDig_iff d).2 hd), intDigits_all _ _ (fun x hx => h x (by simp [hx]))]
    simp [decimal]
  have h43 : d ≠ 43 := by intro h'; subst h'; simp at hd
  have h45 : d ≠ 45 := by intro h'; subst h'; simp at hd
  split
  · rename_i n hn
    split at hn
    · rename_i hh; simp only [List.cons.injEq] at hh; exact absurd hh.1 h43
    · rename_i hh; simp only [List.cons.injEq] at hh; exact absurd hh.1 h45
    · rw [hu] at hn; simp at hn; rw [← hn]
  · rename_i hn
    split at hn
    · rename_i hh; simp only [List.cons.injEq] at hh; exact absurd hh.1 h43
    · rename_i hh; simp only [List.cons.injEq] at hh; exact absurd hh.1 h45
    · rw [hu] at hn; simp at hn

theorem tail_read {file rest post : Bytes} {k : Nat} (hf : file = rest ++ post) (hk : k ≤ rest.length) (n : Nat)
    (hn : n ≤ k) : readAt file (rest.length - k) n = (rest.drop (rest.length - k)).take n := by
  unfold readAt
  rw [hf, List.drop_append_of_le_length (by omega), List.take_append_of_le_length (by simp; omega)]

theorem lyrics2_step {file rest t post : Bytes} (hf : file = rest ++ (t ++ post))
    (h : IsLyrics2 t ∨ (t = [] ∧ ¬ EndsLikeLyrics2 rest)) :
    mp3Lyrics2 file (rest.length + t.length : Nat) = .ok (opt .lyrics200 t rest.length, (rest.length : Nat)) := by
  unfold mp3Lyrics2
  rcases h with ⟨body, ds, h6, hd, hdec, rfl⟩ | ⟨rfl, hno⟩
  · have hlen : (body ++ (ds ++ mLYRICS200)).length = body.length + 15 := by simp [h6, mLYRICS200]
    have e0 : ([0x4C, 0x59, 0x52, 0x49, 0x43, 0x53, 0x32, 0x30, 0x30] : Bytes) = mLYRICS200 := rfl
    rw [e0] at hf ⊢
    rw [hlen]
    rw [if_pos (by omega)]
    have hr : seekRead file ((rest.length + (body.length + 15) : Nat) - 15) 15 = .ok (ds ++ mLYRICS200) := by
      rw [seekRead_int (p := ((rest.length + (body.length + 15) : Nat) : Int) - 15) (n := 15) (a := rest.length + body.length) (b := 15) (by omega) rfl, hf]
      have e : rest ++ (body ++ (ds ++ mLYRICS200) ++ post) = (rest ++ body) ++ ((ds ++ mLYRICS200) ++ post) := by simp
      rw [e]
      exact congrArg _ (readAt_append _ _ _ (by simp) (by simp [h6, mLYRICS200]))
    rw [hr, ok_bind]
    have hdrop : (ds ++ mLYRICS200).drop 6 = mLYRICS200 := by rw [← h6, List.drop_left]
    have htake : (ds ++ mLYRICS200).take 6 = ds := by rw [← h6, List.take_left]
    have hne : ds ≠ [] := by intro h; rw [h] at h6; simp at h6
    rw [if_pos hdrop, htake, pyInt_digits hne hd, ok_bind, hdec]
    have hne' : body ++ (ds ++ mLYRICS200) ≠ [] := by intro h; have := congrArg List.length h; rw [hlen] at this; simp at this
    simp only [opt, if_neg hne', mblk, hlen, pure_eq_ok]
    rw [show ((rest.length + (body.length + 15) : Nat) : Int) - ((body.length : Int) + 15) = (rest.length : Nat) by omega]
    simp
  · simp only [List.length_nil, Nat.add_zero, opt, if_true]
    by_cases h15 : (rest.length : Int) - 15 ≥ 0
    · rw [if_pos h15]
      rw [seekRead_int (p := (rest.length : Int) - 15) (n := 15) (a := rest.length - 15) (b := 15) (by omega) rfl, ok_bind, if_neg]
      · rfl
      · intro h
        apply hno
        have hr : readAt file (rest.length - 15) 15 = rest.drop (rest.length - 15) := by
          rw [tail_read (rest := rest) (post := post) (by rw [hf]; rfl) (by omega) 15 (by omega),
            List.take_of_length_le (by simp; omega)]
        rw [hr] at h
        refine ⟨rest.take (rest.length - 15), (rest.drop (rest.length - 15)).take 6, by simp; omega, ?_⟩
        rw [show ([0x4C, 0x59, 0x52, 0x49, 0x43, 0x53, 0x32, 0x30, 0x30] : Bytes) = mLYRICS200 from rfl, ← h,
          List.take_append_drop, List.take_append_drop]
    · rw [if_neg h15]

theorem bfind_first {sig data : Bytes} {k : Nat} (h : FirstAt sig data k) : bfind sig data = some k := by
  cases hb : bfind sig data with
  | none => exact absurd h.1 (bfind_none hb k)
  | some i =>
    have hi := bfind_some hb
    have h1 := h.2 i hi.1
    have h2 := hi.2 k h.1
    rw [show i = k by omega]

theorem lyrics1_step {file rest t post : Bytes} (hf : file = rest ++ (t ++ post))
    (h : IsLyrics1 rest t ∨ (t = [] ∧ ¬ EndsLikeLyrics1 rest)) :
    mp3Lyrics1 file (rest.length + t.length : Nat) = .ok (opt .lyrics t rest.length, (rest.length : Nat)) := by
  unfold mp3Lyrics1
  rcases h with ⟨⟨body, hb⟩, h5, far, near, hrest, hnear, hfirst⟩ | ⟨rfl, hno⟩
  · have hlen : t.length = 11 + body.length + 9 := by rw [hb]; simp [lyricsBegin, lyricsEnd]; omega
    rw [if_pos (by omega)]
    have hr : seekRead file ((rest.length + t.length : Nat) - 9) 9 = .ok mLYRICSEND := by
      rw [seekRead_int (p := ((rest.length + t.length : Nat) : Int) - 9) (n := 9) (a := rest.length + (11 + body.length)) (b := 9) (by omega) rfl, hf, hb]
      have e : rest ++ (lyricsBegin ++ (body ++ lyricsEnd) ++ post) =
          (rest ++ (lyricsBegin ++ body)) ++ (mLYRICSEND ++ post) := by simp [lyricsEnd, mLYRICSEND]
      rw [e]
      exact congrArg _ (readAt_append _ _ _ (by simp [lyricsBegin]; omega) rfl)
    rw [hr, ok_bind, if_pos rfl]
    have hrl : rest.length = far.length + near.length := by rw [hrest]; simp
    have hr2 : seekRead file ((rest.length + t.length : Nat) - 5100) 5100 = .ok (near ++ t) := by
      rw [seekRead_int (p := ((rest.length + t.length : Nat) : Int) - 5100) (n := 5100) (a := far.length) (b := 5100) (by omega) rfl, hf, hrest]
      have e : far ++ near ++ (t ++ post) = far ++ ((near ++ t) ++ post) := by simp
      rw [e]
      exact congrArg _ (readAt_append _ _ _ rfl (by simp [hnear]))
    have hlb : mLYRICSBEGIN = lyricsBegin := rfl
    rw [hr2, ok_bind, hlb, bfind_first hfirst]
    have hne : t ≠ [] := by intro h; rw [h] at hlen; simp at hlen
    have e1 : ((rest.length + t.length : Nat) : Int) - 5100 + (near.length : Nat) = (rest.length : Nat) := by omega
    dsimp only
    rw [e1]
    simp only [opt, if_neg hne, mblk, pure_eq_ok]
    rw [show ((rest.length + t.length : Nat) : Int) - (rest.length : Nat) = (t.length : Nat) by omega]
    rw [show ((rest.length + t.length : Nat) : Int) - (t.length : Nat) = (rest.length : Nat) by omega]
  · simp only [List.length_nil, Nat.add_zero, opt, if_true]
    by_cases h9 : (rest.length : Int) - 9 ≥ 0
    · rw [if_pos h9]
      rw [seekRead_int (p := (rest.length : Int) - 9) (n := 9) (a := rest.length - 9) (b := 9) (by omega) rfl, ok_bind, if_neg]
      · rfl
      · intro h
        apply hno
        rw [tail_read (rest := rest) (post := post) (by rw [hf]; rfl) (by omega) 9 (by omega),
          List.take_of_length_le (by simp; omega)] at h
        refine ⟨rest.take (rest.length - 9), ?_⟩
        rw [show lyricsEnd = mLYRICSEND from rfl, h, List.take_append_drop]
    · rw [if_neg h9]

/-- The parts of the APE tag: the version is in the type. -/
theorem ape_step {file rest t post : Bytes} (hf : file = rest ++ (t ++ post))
    (h : IsApe t ∨ (t = [] ∧ ¬ EndsLikeApe rest)) :
    ∃ v, mp3Ape file (rest.length + t.length : Nat) = .ok (opt (.ape v) t rest.length, (rest.length : Nat)) := by
  unfold mp3Ape
  rcases h with ⟨items, r, version, size, hv, hs, hr, ht, hlen⟩ | ⟨rfl, hno⟩
  · refine ⟨version, ?_⟩
    have hlen2 : t.length = items.length + 32 := by rw [ht]; simp [hr]
    have e0 : ([0x41, 0x50, 0x45, 0x54, 0x41, 0x47, 0x45, 0x58] : Bytes) = mAPETAGEX := rfl
    rw [e0] at ht
    rw [if_pos (by omega)]
    have r1 : seekRead file ((rest.length + t.length : Nat) - 32) 8 = .ok mAPETAGEX := by
      rw [seekRead_int (p := ((rest.length + t.length : Nat) : Int) - 32) (n := 8) (a := rest.length + items.length) (b := 8) (by omega) rfl, hf, ht]
      have e : rest ++ (items ++ (mAPETAGEX ++ (le 4 version ++ (le 4 size ++ r))) ++ post) =
          (rest ++ items) ++ (mAPETAGEX ++ (le 4 version ++ (le 4 size ++ r) ++ post)) := by simp
      rw [e]
      exact congrArg _ (readAt_append _ _ _ (by simp) rfl)
    have r2 : seekRead file ((rest.length + t.length : Nat) - 24) 4 = .ok (le 4 version) := by
      rw [seekRead_int (p := ((rest.length + t.length : Nat) : Int) - 24) (n := 4) (a := rest.length + items.length + 8) (b := 4) (by omega) rfl, hf, ht]
      have e : rest ++ (items ++ (mAPETAGEX ++ (le 4 version ++ (le 4 size ++ r))) ++ post) =
          (rest ++ (items ++ mAPETAGEX)) ++ (le 4 version ++ (le 4 size ++ r ++ post)) := by simp
      rw [e]
      exact congrArg _ (readAt_append _ _ _ (by simp [mAPETAGEX]; omega) (by simp))
    have r3 : seekRead file ((rest.length + t.length : Nat) - 20) 4 = .ok (le 4 size) := by
      rw [seekRead_int (p := ((rest.length + t.length : Nat) : Int) - 20) (n := 4) (a := rest.length + items.length + 12) (b := 4) (by omega) rfl, hf, ht]
      have e : rest ++ (items ++ (mAPETAGEX ++ (le 4 version ++ (le 4 size ++ r))) ++ post) =
          (rest ++ (items ++ (mAPETAGEX ++ le 4 version))) ++ (le 4 size ++ (r ++ post)) := by simp
      rw [e]
      exact congrArg _ (readAt_append _ _ _ (by simp [mAPETAGEX]; omega) (by simp))
    have u1 := unpackAt_append (k := 4) (n := version) (off := 0) [] [] rfl (by omega)
    have u2 := unpackAt_append (k := 4) (n := size) (off := 0) [] [] rfl (by omega)
    simp only [List.nil_append, List.append_nil] at u1 u2
    rw [r1, ok_bind, if_pos rfl, r2, ok_bind, u1, ok_bind, r3, ok_bind, u2, ok_bind]
    have hne : t ≠ [] := by intro h; rw [h] at hlen2; simp at hlen2
    have e1 : ((rest.length + t.length : Nat) : Int) - (size : Nat) - (if version = 2000 then 32 else 0) = (rest.length : Nat) := by
      split at hlen <;> rename_i hver <;> simp only [hver, if_true, if_false] <;> omega
    rw [e1]
    simp only [opt, if_neg hne, mblk, pure_eq_ok]
    rw [show ((rest.length + t.length : Nat) : Int) - (rest.length : Nat) = (t.length : Nat) by omega]
    rw [show ((rest.length + t.length : Nat) : Int) - (t.length : Nat) = (rest.length : Nat) by omega]
  · refine ⟨0, ?_⟩
    simp only [List.length_nil, Nat.add_zero, opt, if_true]
    by_cases h9 : (rest.length : Int) - 32 ≥ 0
    · rw [if_pos h9]
      rw [seekRead_int (p := (rest.length : Int) - 32) (n := 8) (a := rest.length - 32) (b := 8) (by omega) rfl, ok_bind, if_neg]
      · rfl
      · intro h
        apply hno
        rw [tail_read (rest := rest) (post := post) (by rw [hf]; rfl) (by omega) 8 (by omega)] at h
        refine ⟨rest.take (rest.length - 32), (rest.drop (rest.length - 32)).drop 8, by simp; omega, ?_⟩
        rw [show ([0x41, 0x50, 0x45, 0x54, 0x41, 0x47, 0x45, 0x58] : Bytes) = mAPETAGEX from rfl, h,
          List.take_append_drop, List.take_append_drop]
    · rw [if_neg h9]

/-! ### The whole file -/

/-- The parts behind the sound data. -/
def tailParts (v : Nat) (t : Tags) : List (Mp3Type × Bytes) :=
  [(.ape v, t.ape), (.lyrics, t.lyrics1), (.lyrics200, t.lyrics2), (.tag, t.id3v1)].filter (fun p => p.2 ≠ [])

theorem partBytes_filter (l : List (Mp3Type × Bytes)) : partBytes (l.filter (fun p => p.2 ≠ [])) = partBytes l := by
  induction l with
  | nil => rfl
  | cons p l ih =>
    by_cases h : p.2 = []
    · rw [List.filter_cons_of_neg (by simp [h]), ih]; simp [h]
    · rw [List.filter_cons_of_pos (by simp [h]), partBytes_cons, ih, partBytes_cons]

theorem tailParts_bytes (v : Nat) (t : Tags) : partBytes (tailParts v t) = t.bytes := by
  unfold tailParts
  rw [partBytes_filter]
  simp [Tags.bytes]

theorem place_opt (ty : Mp3Type) (x : Bytes) (l : List (Mp3Type × Bytes)) (pos : Nat) :
    place (((ty, x) :: l).filter (fun p => p.2 ≠ [])) pos =
      opt ty x pos ++ place (l.filter (fun p => p.2 ≠ [])) (pos + x.length) := by
  by_cases h : x = []
  · subst h; simp [opt]
  · rw [List.filter_cons_of_pos (by simp [h])]
    simp [opt, h, place]

/-- The reader on a tagged file, given what it makes of the middle. -/
theorem mp3Blocks_fixed {front : List Bytes} {mid : Bytes} {t : Tags} (h : Tagged front mid t)
    {file : Bytes} (hf : file = front.flatten ++ (mid ++ t.bytes))
    (hfix : mp3Fix file (place (front.map fun f => (.id3, f)) 0) front.flatten.length =
      .ok (place (front.map fun f => (.id3, f)) 0, (front.flatten.length : Nat)))
    {parts : List (Mp3Type × Bytes)} (hparts : partBytes parts = mid) (hne : ∀ p ∈ parts, p.2 ≠ [])
    (hmid : mp3Main file (front.flatten.length : Nat) (front.flatten.length + mid.length : Nat) =
      .ok (place parts front.flatten.length)) :
    ∃ v, mp3Blocks file = .ok (place (front.map (fun f => (.id3, f)) ++ (parts ++ tailParts v t)) 0) := by
  have hfl : front.length ≤ front.flatten.length := by
    have := h.front_
    clear h hf hfix hmid
    induction front with
    | nil => simp
    | cons f l ih =>
      have h1 := ih (fun x hx => this x (by simp [hx]))
      obtain ⟨n, hn, _⟩ := id3_parts (this f (by simp)) (pre := []) (post := []) rfl
      simp only [List.length_cons, List.flatten_cons, List.length_append]
      omega
  have hfile : file.length = front.flatten.length + mid.length + t.bytes.length := by rw [hf]; simp; omega
  have s1 := mp3Id3s_front front [] (mid ++ t.bytes) 0 (file.length + 1) h.front_ (by
    intro hp
    exact h.noId3 (List.prefix_of_prefix_length_le hp (List.prefix_append mid t.bytes) (by simp; have := h.four; omega))) rfl hf (by omega)
  rw [Nat.zero_add] at s1
  have hb : t.bytes = t.ape ++ (t.lyrics1 ++ (t.lyrics2 ++ t.id3v1)) := rfl
  have s2 := v1_step (file := file) (rest := front.flatten ++ (mid ++ (t.ape ++ (t.lyrics1 ++ t.lyrics2)))) (t := t.id3v1)
    (by rw [hf, hb]; simp) (by rw [hf]; exact h.long) (by rw [hf]; exact h.id3v1_)
  have s3 := lyrics2_step (file := file) (rest := front.flatten ++ (mid ++ (t.ape ++ t.lyrics1))) (t := t.lyrics2)
    (post := t.id3v1) (by rw [hf, hb]; simp) h.lyrics2_
  have s4 := lyrics1_step (file := file) (rest := front.flatten ++ (mid ++ t.ape)) (t := t.lyrics1)
    (post := t.lyrics2 ++ t.id3v1) (by rw [hf, hb]; simp) h.lyrics1_
  obtain ⟨v, s5⟩ := ape_step (file := file) (rest := front.flatten ++ mid) (t := t.ape)
    (post := t.lyrics1 ++ (t.lyrics2 ++ t.id3v1)) (by rw [hf, hb]; simp) h.ape_
  refine ⟨v, ?_⟩
  have e2 : (front.flatten ++ (mid ++ (t.ape ++ (t.lyrics1 ++ t.lyrics2)))).length =
      (front.flatten ++ (mid ++ (t.ape ++ t.lyrics1))).length + t.lyrics2.length := by simp; omega
  have e3 : (front.flatten ++ (mid ++ (t.ape ++ t.lyrics1))).length =
      (front.flatten ++ (mid ++ t.ape)).length + t.lyrics1.length := by simp; omega
  have e4 : (front.flatten ++ (mid ++ t.ape)).length = (front.flatten ++ mid).length + t.ape.length := by simp; omega
  have e5 : (front.flatten ++ mid).length = front.flatten.length + mid.length := by simp
  unfold mp3Blocks
  rw [s1, ok_bind]
  dsimp only
  rw [s2, ok_bind]
  dsimp only
  rw [e2, s3, ok_bind]
  dsimp only
  rw [e3, s4, ok_bind]
  dsimp only
  rw [e4, s5, ok_bind]
  dsimp only
  rw [hfix, ok_bind, e5]
  dsimp only
  rw [hmid, ok_bind, pure_eq_ok]
  congr 1
  apply mp3Sort_of_perm
  · have hfb : partBytes (front.map fun f => (Mp3Type.id3, f)) = front.flatten := by
      simp only [partBytes, List.map_map]
      congr 1
      rw [show ((fun x : Mp3Type × Bytes => x.snd) ∘ fun f => (Mp3Type.id3, f)) = id from rfl, List.map_id]
    rw [place_append, place_append, hfb, hparts, Nat.zero_add]
    have ht : place (tailParts v t) (front.flatten.length + mid.length) =
        opt (.ape v) t.ape (front.flatten.length + mid.length) ++
        (opt .lyrics t.lyrics1 (front.flatten.length + mid.length + t.ape.length) ++
        (opt .lyrics200 t.lyrics2 (front.flatten.length + mid.length + t.ape.length + t.lyrics1.length) ++
        opt .tag t.id3v1 (front.flatten.length + mid.length + t.ape.length + t.lyrics1.length + t.lyrics2.length))) := by
      unfold tailParts
      rw [place_opt, place_opt, place_opt, place_opt]
      simp [place]
    rw [ht]
    refine List.Perm.append_left _ ?_
    generalize opt (.ape v) t.ape (front.flatten.length + mid.length) = a
    generalize opt .lyrics t.lyrics1 (front.flatten.length + mid.length + t.ape.length) = b
    generalize opt .lyrics200 t.lyrics2 (front.flatten.length + mid.length + t.ape.length + t.lyrics1.length) = c
    generalize opt .tag t.id3v1 (front.flatten.length + mid.length + t.ape.length + t.lyrics1.length + t.lyrics2.length) = d
    generalize place parts front.flatten.length = m
    -- d c b a m ~ m a b c d
    have p1 : (d ++ (c ++ (b ++ (a ++ m)))).Perm (d ++ (c ++ (b ++ (m ++ a)))) :=
      List.Perm.append_left _ (List.Perm.append_left _ (List.Perm.append_left _ List.perm_append_comm))
    have p2 : (d ++ (c ++ (b ++ (m ++ a)))).Perm (d ++ (c ++ ((m ++ a) ++ b))) :=
      List.Perm.append_left _ (List.Perm.append_left _ List.perm_append_comm)
    have p3 : (d ++ (c ++ ((m ++ a) ++ b))).Perm (d ++ (((m ++ a) ++ b) ++ c)) :=
      List.Perm.append_left _ List.perm_append_comm
    have p4 : (d ++ (((m ++ a) ++ b) ++ c)).Perm ((((m ++ a) ++ b) ++ c) ++ d) := List.perm_append_comm
    have := p1.trans (p2.trans (p3.trans p4))
    simpa using this
  · apply place_sorted
    intro p hp
    simp only [List.mem_append, List.mem_map] at hp
    rcases hp with ⟨f, hf, rfl⟩ | hp | hp
    · obtain ⟨n, hn, _⟩ := id3_parts (h.front_ f hf) (pre := []) (post := []) rfl
      intro h; simp only at h; rw [h] at hn; simp at hn; omega
    · exact hne p hp
    · have := (List.mem_filter.1 hp).2
      simpa using this

/-- The tags in front are left alone when the marker after them is known. -/
theorem mp3Fix_good {front : List Bytes} {mid : Bytes} {t : Tags} (h4 : 4 ≤ mid.length)
    {file : Bytes} (hf : file = front.flatten ++ (mid ++ t.bytes))
    (hbad : front = [] ∨ markerBad (mid.take 4) = false) :
    mp3Fix file (place (front.map fun f => (.id3, f)) 0) front.flatten.length =
      .ok (place (front.map fun f => (.id3, f)) 0, (front.flatten.length : Nat)) := by
  unfold mp3Fix
  rcases hbad with rfl | hbad
  · rfl
  · have hr : readAt file front.flatten.length 4 = mid.take 4 := by
      rw [hf]
      unfold readAt
      rw [List.drop_left, List.take_append_of_le_length h4]
    rw [hr, hbad]
    cases (place (front.map fun f => (.id3, f)) 0).getLast? <;> rfl

theorem mp3Blocks_tagged {front : List Bytes} {mid : Bytes} {t : Tags} (h : Tagged front mid t)
    {file : Bytes} (hf : file = front.flatten ++ (mid ++ t.bytes))
    (hbad : front = [] ∨ markerBad (mid.take 4) = false)
    {parts : List (Mp3Type × Bytes)} (hparts : partBytes parts = mid) (hne : ∀ p ∈ parts, p.2 ≠ [])
    (hmid : mp3Main file (front.flatten.length : Nat) (front.flatten.length + mid.length : Nat) =
      .ok (place parts front.flatten.length)) :
    ∃ v, mp3Blocks file = .ok (place (front.map (fun f => (.id3, f)) ++ (parts ++ tailParts v t)) 0) :=
  mp3Blocks_fixed h hf (mp3Fix_good h.four hf hbad) hparts hne hmid

end Rescene
