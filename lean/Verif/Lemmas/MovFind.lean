import Verif.Lemmas.MovRebuild
/-
The search for the tracks of an MP4 sample in a movie, and reading them from there.
-/
namespace Rescene
open Rescene.Spec

/-- The data of a chunk. -/
def mdata (file : Bytes) (c : MovChunk) : Bytes := (file.drop c.off).take c.samples.sum

/-- A place at the start of a sample: the position in the track, the offset in the file, the samples
that are left of the chunk, and the chunks that follow. -/
structure Cursor where
  pos : Nat
  off : Nat
  left : List Nat
  next : List MovChunk

def Cursor.data (file : Bytes) (x : Cursor) : Bytes := (file.drop x.off).take x.left.sum ++ x.next.flatMap (mdata file)

/-- The cursors of one chunk. -/
def chunkCursors (next : List MovChunk) : Nat → Nat → List Nat → List Cursor
  | _, _, [] => []
  | pos, off, s :: left => ⟨pos, off, s :: left, next⟩ :: chunkCursors next (pos + s) (off + s) left

def cursors : Nat → List MovChunk → List Cursor
  | _, [] => []
  | pos, c :: rest => chunkCursors rest pos c.off c.samples ++ cursors (pos + c.samples.sum) rest

/-- The chunks are in the file. -/
def AllInside (file : Bytes) (l : List MovChunk) : Prop := ∀ c ∈ l, c.off + c.samples.sum ≤ file.length

theorem seekTo_ok {file : Bytes} (hbig : file.length < 2 ^ 63) {off n : Nat} (ho : off ≤ file.length) (hn : n ≤ file.length) :
    seekTo file off n = .ok ((file.drop off).take n) := by
  unfold seekTo
  rw [if_pos ⟨by omega, by omega⟩]
  rfl

theorem mdata_length {file : Bytes} {c : MovChunk} (h : c.off + c.samples.sum ≤ file.length) : (mdata file c).length = c.samples.sum := by
  simp [mdata]; omega

theorem streamMore_ok {file : Bytes} (hbig : file.length < 2 ^ 63) {amount : Nat} : ∀ {l : List MovChunk} {got : Bytes},
    AllInside file l → got.length ≤ amount →
    streamMore file amount l got = .ok ((got ++ l.flatMap (mdata file)).take amount)
  | [], got, _, hg => by
    rw [streamMore, List.flatMap_nil, List.append_nil, List.take_of_length_le hg]
  | c :: l, got, hin, hg => by
    have hc := hin c (by simp)
    rw [streamMore]
    split
    · rename_i hlt
      rw [seekTo_ok hbig (by omega) (by have := Nat.min_le_right (amount - got.length) c.samples.sum; omega), ok_bind,
        streamMore_ok hbig (fun c hc => hin c (by simp [hc])) (by simp; omega), List.flatMap_cons]
      congr 1
      by_cases hle : c.samples.sum ≤ amount - got.length
      · rw [Nat.min_eq_right hle, ← List.append_assoc]
        rfl
      · have hle : amount - got.length ≤ c.samples.sum := by omega
        rw [Nat.min_eq_left hle, List.append_assoc, List.take_append, List.take_append, List.take_append, List.take_append]
        congr 1
        unfold mdata
        rw [List.take_take, List.take_take, Nat.min_self, Nat.min_eq_left hle]
        congr 1
        rw [show amount - got.length - (List.take (amount - got.length) (List.drop c.off file)).length = 0 by simp; omega,
          show amount - got.length - (List.take c.samples.sum (List.drop c.off file)).length = 0 by simp; omega,
          List.take_zero]
    · rename_i hlt
      have e : got.length = amount := by omega
      rw [← e, List.take_left]

theorem streamRead_ok {file : Bytes} (hbig : file.length < 2 ^ 63) {x : Cursor} (hx : x.off + x.left.sum ≤ file.length)
    (hin : AllInside file x.next) (amount : Nat) :
    streamRead file x.off x.left x.next amount = .ok ((x.data file).take amount) := by
  unfold streamRead Cursor.data
  split
  · rename_i h
    rw [seekTo_ok hbig (by omega) (by omega), List.take_append, List.take_take, Nat.min_eq_left (by omega),
      show amount - (List.take x.left.sum (List.drop x.off file)).length = 0 by simp; omega, List.take_zero, List.append_nil]
  · rename_i h
    rw [seekTo_ok hbig (by omega) (by omega), ok_bind, streamMore_ok hbig hin (by simp; omega)]

/-- The signature is at this place. -/
def Cursor.matches (file sig : Bytes) (x : Cursor) : Bool := (x.data file).take sig.length == sig

theorem findInChunk_ok {file sig : Bytes} (hbig : file.length < 2 ^ 63) {next : List MovChunk} (hin : AllInside file next) :
    ∀ {samples : List Nat} {pos off : Nat}, samples ≠ [] → off + samples.sum ≤ file.length →
    findInChunk file sig next off samples = .ok (((chunkCursors next pos off samples).find? (Cursor.matches file sig)).map (·.off))
  | [], _, _, h, _ => absurd rfl h
  | s :: left, pos, off, _, hle => by
    rw [findInChunk.eq_def]
    dsimp only
    rw [streamRead_ok (x := ⟨pos, off, s :: left, next⟩) hbig hle hin, ok_bind]
    rw [chunkCursors, List.find?_cons]
    cases hm : Cursor.matches file sig ⟨pos, off, s :: left, next⟩ with
    | true =>
      have hm' : ((Cursor.data file ⟨pos, off, s :: left, next⟩).take sig.length) = sig := by simpa [Cursor.matches] using hm
      rw [if_pos hm']
      rfl
    | false =>
      have hm' : ¬ ((Cursor.data file ⟨pos, off, s :: left, next⟩).take sig.length) = sig := by simpa [Cursor.matches] using hm
      rw [if_neg hm']
      cases left with
      | nil => rfl
      | cons t left =>
        rw [List.sum_cons] at hle
        exact findInChunk_ok hbig hin (by simp) (by omega)

theorem findInChunks_ok {file sig : Bytes} (hbig : file.length < 2 ^ 63) : ∀ {l : List MovChunk} {pos : Nat}, AllInside file l →
    (∀ c ∈ l, c.samples ≠ []) →
    findInChunks file sig l = .ok (((cursors pos l).find? (Cursor.matches file sig)).map (·.off))
  | [], _, _, _ => rfl
  | c :: l, pos, hin, hne => by
    have hin' : AllInside file l := fun c hc => hin c (by simp [hc])
    rw [findInChunks, findInChunk_ok (pos := pos) hbig hin' (hne c (by simp)) (hin c (by simp)), ok_bind, cursors, List.find?_append]
    cases (chunkCursors l pos c.off c.samples).find? (Cursor.matches file sig) with
    | some x => rfl
    | none => exact findInChunks_ok hbig hin' (fun c hc => hne c (by simp [hc]))

/-! Positions of cursors. -/

theorem chunkCursors_ge {next : List MovChunk} : ∀ {samples : List Nat} {pos off : Nat}, ∀ x ∈ chunkCursors next pos off samples,
    pos ≤ x.pos ∧ x.pos ≤ pos + samples.sum
  | s :: left, pos, off, x, hx => by
    rw [chunkCursors, List.mem_cons] at hx
    rcases hx with rfl | hx
    · exact ⟨Nat.le_refl _, Nat.le_add_right _ _⟩
    · have := chunkCursors_ge x hx
      rw [List.sum_cons]
      omega

theorem chunkCursors_sorted {next : List MovChunk} : ∀ {samples : List Nat} {pos off : Nat},
    (chunkCursors next pos off samples).Pairwise fun a b => a.pos ≤ b.pos
  | [], _, _ => List.Pairwise.nil
  | s :: left, pos, off => by
    rw [chunkCursors, List.pairwise_cons]
    refine ⟨fun x hx => ?_, chunkCursors_sorted⟩
    have := (chunkCursors_ge x hx).1
    show pos ≤ x.pos
    omega

theorem cursors_ge : ∀ {l : List MovChunk} {pos : Nat}, ∀ x ∈ cursors pos l, pos ≤ x.pos
  | c :: l, pos, x, hx => by
    rw [cursors, List.mem_append] at hx
    rcases hx with hx | hx
    · exact (chunkCursors_ge x hx).1
    · have := cursors_ge x hx
      omega

theorem cursors_sorted : ∀ {l : List MovChunk} {pos : Nat}, (cursors pos l).Pairwise fun a b => a.pos ≤ b.pos
  | [], _ => List.Pairwise.nil
  | c :: l, pos => by
    rw [cursors, List.pairwise_append]
    refine ⟨chunkCursors_sorted, cursors_sorted, fun x hx y hy => ?_⟩
    have := (chunkCursors_ge x hx).2
    have := cursors_ge y hy
    omega

/-- What a cursor in a chunk is. -/
theorem chunkCursors_mem {next : List MovChunk} : ∀ {samples : List Nat} {pos off : Nat}, ∀ x ∈ chunkCursors next pos off samples,
    ∃ a s b, samples = a ++ s :: b ∧ x = ⟨pos + a.sum, off + a.sum, s :: b, next⟩
  | s :: left, pos, off, x, hx => by
    rw [chunkCursors, List.mem_cons] at hx
    rcases hx with rfl | hx
    · exact ⟨[], s, left, rfl, rfl⟩
    · obtain ⟨a, t, b, e, rfl⟩ := chunkCursors_mem x hx
      refine ⟨s :: a, t, b, by rw [e]; rfl, ?_⟩
      rw [List.sum_cons, ← Nat.add_assoc, ← Nat.add_assoc]

theorem mem_chunkCursors {next : List MovChunk} {s : Nat} {b : List Nat} : ∀ {a : List Nat} {pos off : Nat},
    (⟨pos + a.sum, off + a.sum, s :: b, next⟩ : Cursor) ∈ chunkCursors next pos off (a ++ s :: b)
  | [], _, _ => by simp [chunkCursors]
  | t :: a, pos, off => by
    rw [List.cons_append, chunkCursors, List.sum_cons, ← Nat.add_assoc, ← Nat.add_assoc]
    exact List.mem_cons_of_mem _ mem_chunkCursors

theorem cursors_start : ∀ {l : List MovChunk} {pos : Nat}, ∀ x ∈ cursors pos l, ∃ a s b,
    l.flatMap (·.samples) = a ++ s :: b ∧ x.pos = pos + a.sum
  | c :: l, pos, x, hx => by
    rw [cursors, List.mem_append] at hx
    rcases hx with hx | hx
    · obtain ⟨a, s, b, e, rfl⟩ := chunkCursors_mem x hx
      exact ⟨a, s, b ++ l.flatMap (·.samples), by rw [List.flatMap_cons, e]; simp, rfl⟩
    · obtain ⟨a, s, b, e, hp⟩ := cursors_start x hx
      refine ⟨c.samples ++ a, s, b, by rw [List.flatMap_cons, e]; simp, ?_⟩
      rw [hp, List.sum_append]
      omega

theorem start_cursor : ∀ {l : List MovChunk} {pos : Nat} {a b : List Nat} {s : Nat}, l.flatMap (·.samples) = a ++ s :: b →
    ∃ x ∈ cursors pos l, x.pos = pos + a.sum
  | [], _, a, b, s, h => by simp at h
  | c :: l, pos, a, b, s, h => by
    rw [List.flatMap_cons] at h
    rw [List.append_eq_append_iff] at h
    rcases h with ⟨m, rfl, h⟩ | ⟨m, e, h⟩
    · obtain ⟨x, hx, hp⟩ := start_cursor (pos := pos + c.samples.sum) h
      refine ⟨x, by rw [cursors]; exact List.mem_append_right _ hx, ?_⟩
      rw [hp, List.sum_append]
      omega
    · cases m with
      | nil =>
        rw [List.append_nil] at e
        obtain ⟨x, hx, hp⟩ := start_cursor (l := l) (pos := pos + c.samples.sum) (a := []) h.symm
        refine ⟨x, by rw [cursors]; exact List.mem_append_right _ hx, ?_⟩
        rw [hp, e]
        rfl
      | cons t m =>
        obtain ⟨rfl, h⟩ := List.cons.inj h
        refine ⟨⟨pos + a.sum, c.off + a.sum, s :: m, l⟩, ?_, rfl⟩
        rw [cursors, e]
        exact List.mem_append_left _ mem_chunkCursors

theorem cursor_data {file : Bytes} : ∀ {l : List MovChunk} {pos : Nat}, AllInside file l → ∀ x ∈ cursors pos l,
    x.data file = (l.flatMap (mdata file)).drop (x.pos - pos) ∧ x.off + x.left.sum ≤ file.length ∧ AllInside file x.next
  | c :: l, pos, hin, x, hx => by
    have hin' : AllInside file l := fun c hc => hin c (by simp [hc])
    have hc := hin c (by simp)
    rw [cursors, List.mem_append] at hx
    rcases hx with hx | hx
    · obtain ⟨a, s, b, e, rfl⟩ := chunkCursors_mem x hx
      rw [e, List.sum_append] at hc
      refine ⟨?_, by dsimp only; omega, hin'⟩
      rw [Cursor.data, List.flatMap_cons]
      dsimp only
      rw [Nat.add_sub_cancel_left, List.drop_append_of_le_length (by rw [mdata_length (hin c (by simp)), e, List.sum_append]; omega)]
      congr 1
      unfold mdata
      rw [List.drop_take, List.drop_drop, e, List.sum_append, Nat.add_sub_cancel_left]
    · obtain ⟨h1, h2, h3⟩ := cursor_data hin' x hx
      refine ⟨?_, h2, h3⟩
      have hge := cursors_ge x hx
      rw [h1, List.flatMap_cons, show x.pos - pos = (mdata file c).length + (x.pos - (pos + c.samples.sum)) by
        rw [mdata_length hc]; omega, ← List.drop_drop, List.drop_left]

/-! Reading from an offset. -/

theorem samplesFrom_ok {left : List Nat} : ∀ {a : List Nat} {base : Nat},
    ∃ left', samplesFrom (base + a.sum) base (a ++ left) = .ok left' ∧ left'.sum = left.sum
  | [], base => by
    cases left with
    | nil => exact ⟨[], rfl, rfl⟩
    | cons s left =>
      refine ⟨s :: left, ?_, rfl⟩
      rw [List.nil_append, samplesFrom, if_pos (by simp), if_neg (by simp)]
  | t :: a, base => by
    rw [List.cons_append, samplesFrom]
    by_cases h : base + (t :: a).sum ≤ base
    · rw [if_pos h, if_neg (by omega)]
      refine ⟨_, rfl, ?_⟩
      rw [List.sum_cons] at h
      rw [List.sum_cons, List.sum_append]
      omega
    · rw [if_neg h, List.sum_cons, ← Nat.add_assoc]
      exact samplesFrom_ok

theorem seekChunks_some {off : Nat} : ∀ {l : List MovChunk} {c : MovChunk} {r : List MovChunk}, seekChunks off l = some (c, r) →
    ∃ mid, l = mid ++ c :: r ∧ c.off ≤ off
  | d :: l, c, r, h => by
    rw [seekChunks] at h
    cases hs : seekChunks off l with
    | some x =>
      rw [hs] at h
      injection h with h
      subst h
      obtain ⟨mid, rfl, hle⟩ := seekChunks_some hs
      exact ⟨d :: mid, rfl, hle⟩
    | none =>
      rw [hs] at h
      dsimp only at h
      split at h
      · injection h with h
        injection h with h1 h2
        subst h1; subst h2
        exact ⟨[], rfl, by assumption⟩
      · simp at h

theorem flatMap_nil_of {α β : Type} {f : α → List β} : ∀ {l : List α}, (∀ x ∈ l, f x = []) → l.flatMap f = []
  | [], _ => rfl
  | x :: l, h => by rw [List.flatMap_cons, h x (by simp), flatMap_nil_of (fun y hy => h y (by simp [hy]))]; rfl

theorem seek_cursor {file : Bytes} : ∀ {l : List MovChunk} {pos : Nat}, AllInside file l →
    l.Pairwise (fun a b => a.off + a.samples.sum ≤ b.off) → ∀ x ∈ cursors pos l,
    ∃ c rest left, seekChunks x.off l = some (c, rest) ∧ samplesFrom x.off c.off c.samples = .ok left ∧
      x.off + left.sum ≤ file.length ∧ AllInside file rest ∧
      (file.drop x.off).take left.sum ++ rest.flatMap (mdata file) = x.data file
  | c :: l, pos, hin, hpw, x, hx => by
    have hin' : AllInside file l := fun c hc => hin c (by simp [hc])
    have hc := hin c (by simp)
    rw [List.pairwise_cons] at hpw
    rw [cursors, List.mem_append] at hx
    rcases hx with hx | hx
    · obtain ⟨a, s, b, e, rfl⟩ := chunkCursors_mem x hx
      dsimp only
      rw [seekChunks]
      cases hs : seekChunks (c.off + a.sum) l with
      | none =>
        dsimp only
        rw [if_pos (Nat.le_add_right _ _)]
        obtain ⟨left, h1, h2⟩ := samplesFrom_ok (left := s :: b) (a := a) (base := c.off)
        rw [e, List.sum_append] at hc
        refine ⟨c, l, left, rfl, by rw [e]; exact h1, by omega, hin', ?_⟩
        rw [h2]
        rfl
      | some r =>
        obtain ⟨d, r⟩ := r
        obtain ⟨mid, el, hle⟩ := seekChunks_some hs
        have hd := hpw.1 d (by rw [el]; simp)
        rw [e, List.sum_append] at hd
        have eo : c.off + a.sum = d.off := by omega
        have hz : (s :: b).sum = 0 := by omega
        have hind := hin' d (by rw [el]; simp)
        obtain ⟨left, h1, h2⟩ := samplesFrom_ok (left := d.samples) (a := []) (base := d.off)
        refine ⟨d, r, left, rfl, by rw [eo]; exact h1, by rw [h2]; omega, fun y hy => hin' y (by rw [el]; simp [hy]), ?_⟩
        have hmid : mid.flatMap (mdata file) = [] := by
          refine flatMap_nil_of fun y hy => ?_
          have h3 := hpw.1 y (by rw [el]; simp [hy])
          have hp2 := hpw.2
          rw [el, List.pairwise_append] at hp2
          have h4 := hp2.2.2 y hy d (by simp)
          rw [e, List.sum_append] at h3
          have : y.samples.sum = 0 := by omega
          rw [mdata, this, List.take_zero]
        rw [Cursor.data]
        dsimp only
        rw [hz, List.take_zero, List.nil_append, el, List.flatMap_append, hmid, List.nil_append, List.flatMap_cons, h2, eo]
        rfl
    · obtain ⟨d, rest, left, h1, h2⟩ := seek_cursor hin' hpw.2 x hx
      refine ⟨d, rest, left, ?_, h2⟩
      rw [seekChunks, h1]

end Rescene
