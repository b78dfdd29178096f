import Verif.Spec.WmvCut
import Verif.Lemmas.WmvSrs
import Verif.Lemmas.AviFind
/-
C68: the search for the data of a WMV sample in a movie.
-/
namespace Rescene
open Spec

/-! ### One payload -/

/-- What was found before, and more of it or none. -/
def extendTrack (t : TrackData) (d : Bytes) : TrackData :=
  if 0 < t.checkBytes.length ∧ t.checkBytes.length < t.sig.length then
    let cb := t.checkBytes ++ d.take (min t.sig.length (d.length + t.checkBytes.length) - t.checkBytes.length)
    if cb.isPrefixOf t.sig then { t with checkBytes := cb }
    else { t with checkBytes := [], matchOffset := 0, matchLength := 0 }
  else t

/-- What the search makes of the state of a stream. -/
def stepTrack (t : TrackData) (pos : Nat) (d : Bytes) : TrackData :=
  if t.matchOffset = 0 ∨ t.checkBytes.length < t.sig.length then
    if (extendTrack t d).checkBytes = [] then
      match aviScan t.sig d with
      | some i => { extendTrack t d with checkBytes := (d.drop i).take t.sig.length, matchOffset := pos + i,
                                         matchLength := min t.dataLength (d.length - i) }
      | none => extendTrack t d
    else { extendTrack t d with matchLength := min ((extendTrack t d).dataLength - (extendTrack t d).matchLength) d.length }
  else if t.matchLength < t.dataLength then
    { t with matchLength := t.matchLength + min (t.dataLength - t.matchLength) d.length }
  else t

/-- What was gathered so far and the next bytes. -/
theorem gather {cb d : Bytes} {m : Nat} (h : cb.length ≤ m) : cb ++ d.take (min m (d.length + cb.length) - cb.length) = (cb ++ d).take m := by
  rw [List.take_append, List.take_of_length_le h]
  congr 1
  by_cases h' : m ≤ d.length + cb.length
  · rw [Nat.min_eq_left h']
  · rw [Nat.min_eq_right (by omega), Nat.add_sub_cancel, List.take_of_length_le (Nat.le_refl _), List.take_of_length_le (by omega)]

theorem extend_nil {t : TrackData} (d : Bytes) (h : t.checkBytes = []) : extendTrack t d = t := by
  unfold extendTrack
  rw [if_neg]
  rw [h]; simp

theorem extend_more {t : TrackData} {d : Bytes} (h0 : t.checkBytes ≠ []) (h1 : t.checkBytes.length < t.sig.length)
    (h : (t.checkBytes ++ d).take t.sig.length <+: t.sig) :
    extendTrack t d = { t with checkBytes := (t.checkBytes ++ d).take t.sig.length } := by
  unfold extendTrack
  rw [if_pos ⟨List.length_pos_iff.2 h0, h1⟩]
  dsimp only
  rw [gather (Nat.le_of_lt h1), if_pos (isPrefixOf_true h)]

theorem extend_reset {t : TrackData} {d : Bytes} (h0 : t.checkBytes ≠ []) (h1 : t.checkBytes.length < t.sig.length)
    (h : ¬ (t.checkBytes ++ d).take t.sig.length <+: t.sig) :
    extendTrack t d = { t with checkBytes := [], matchOffset := 0, matchLength := 0 } := by
  unfold extendTrack
  rw [if_pos ⟨List.length_pos_iff.2 h0, h1⟩]
  dsimp only
  rw [gather (Nat.le_of_lt h1), if_neg (fun e => h (List.isPrefixOf_iff_prefix.1 e))]

theorem wmvFindPayload_step {s : Tracks × Bool} {prev : Nat} {q : WmvPiece} (hs : (s.1.getNew q.stream).sig ≠ []) :
    ∃ done, wmvFindPayload s prev (asfOf false q) =
        .ok (s.1.put q.stream (stepTrack (s.1.getNew q.stream) (prev + q.head.length) q.data), done) ∧
      (done = true → s.2 = true ∨ ∀ x ∈ s.1.put q.stream (stepTrack (s.1.getNew q.stream) (prev + q.head.length) q.data),
        x.2.dataLength ≤ x.2.matchLength) := by
  unfold wmvFindPayload stepTrack
  simp only [asfOf, Bool.false_eq_true, if_false]
  generalize ht : s.1.getNew q.stream = t at hs
  by_cases h1 : t.matchOffset = 0 ∨ t.checkBytes.length < t.sig.length
  · rw [if_pos h1, if_pos h1]
    simp only [if_neg hs]
    change ∃ done, (if (extendTrack t q.data).checkBytes = [] then
        match aviScan t.sig q.data with
        | some i => Except.ok (s.1.put q.stream { extendTrack t q.data with checkBytes := (q.data.drop i).take t.sig.length, matchOffset := (prev : Int) + q.head.length + i, matchLength := min t.dataLength (q.data.length - i) }, s.2)
        | none => Except.ok (s.1.put q.stream (extendTrack t q.data), s.2)
      else Except.ok (s.1.put q.stream { extendTrack t q.data with matchLength := min ((extendTrack t q.data).dataLength - (extendTrack t q.data).matchLength) q.data.length }, s.2)) = _ ∧ _
    generalize extendTrack t q.data = t1
    split
    · cases aviScan t.sig q.data with
      | some i => exact ⟨_, by simp only [Int.natCast_add], fun h => .inl h⟩
      | none => exact ⟨_, rfl, fun h => .inl h⟩
    · exact ⟨_, rfl, fun h => .inl h⟩
  · rw [if_neg h1, if_neg h1]
    split
    · refine ⟨_, rfl, fun h => .inr fun x hx => ?_⟩
      simp only [Bool.not_eq_true', List.any_eq_false, decide_eq_true_eq, Nat.not_lt] at h
      exact h x hx
    · exact ⟨_, rfl, fun h => .inl h⟩

/-- A stream whose start has not been met: `S` is its data so far. -/
structure Waiting (sig : Bytes) (len : Nat) (S : Bytes) (t : TrackData) : Prop where
  isSig : t.sig = sig
  isLen : t.dataLength = len
  tail : t.checkBytes <:+ S
  pre : t.checkBytes <+: sig
  short : t.checkBytes.length < sig.length
  few : t.matchLength ≤ t.checkBytes.length

/-- A stream that was found at `off`; `T` is its data since. -/
structure WmvFound (sig : Bytes) (len : Nat) (off : Nat) (T : Bytes) (t : TrackData) : Prop where
  isSig : t.sig = sig
  isLen : t.dataLength = len
  off : t.matchOffset = (off : Int)
  check : t.checkBytes = T.take sig.length
  some : T ≠ []

theorem aviScan_sound {sig : Bytes} : ∀ {data : Bytes} {i : Nat}, aviScan sig data = some i →
    i < data.length ∧ (data.drop i).take sig.length <+: sig
  | [], _, h => by simp [aviScan] at h
  | b :: t, i, h => by
    rw [aviScan] at h
    split at h
    · rename_i hc
      simp only [Option.some.injEq] at h
      subst h
      exact ⟨by simp, by simpa using List.isPrefixOf_iff_prefix.1 hc.2⟩
    · cases h' : aviScan sig t with
      | none => rw [h'] at h; simp at h
      | some j =>
        rw [h'] at h
        simp only [Option.map_some, Option.some.injEq] at h
        subst h
        obtain ⟨h1, h2⟩ := aviScan_sound h'
        exact ⟨by simp; omega, by simpa using h2⟩

theorem aviScan_len {sig data : Bytes} {i : Nat} (h : aviScan sig data = some i) : i < data.length := (aviScan_sound h).1

/-- The tail is the data from some place on. -/
theorem tail_drop {cb S : Bytes} (h : cb <:+ S) (d : Bytes) : ∃ i, i + cb.length = S.length ∧ (S ++ d).drop i = cb ++ d := by
  obtain ⟨x, rfl⟩ := h
  exact ⟨x.length, by simp, by simp⟩

theorem Waiting.step {sig : Bytes} {len : Nat} {S d : Bytes} {t : TrackData} (h : Waiting sig len S t) (pos : Nat) (hlen : sig.length ≤ len)
    (hno : ∀ i, ((S ++ d).drop i).take sig.length ≠ sig) : Waiting sig len (S ++ d) (stepTrack t pos d) := by
  have hscan : ∀ t1 : TrackData, t1.sig = sig → t1.dataLength = len → t1.checkBytes = [] → t1.matchLength = 0 →
      Waiting sig len (S ++ d) (match aviScan sig d with
        | some i => { t1 with checkBytes := (d.drop i).take sig.length, matchOffset := pos + i, matchLength := min len (d.length - i) }
        | none => t1) := by
    intro t1 e1 e2 e3 e5
    cases hs : aviScan sig d with
    | none => dsimp only; exact ⟨e1, e2, by rw [e3]; simp, by rw [e3]; simp, by rw [e3]; have := h.short; simp; omega, by omega⟩
    | some i =>
      obtain ⟨hi, hp⟩ := aviScan_sound hs
      have hlt : d.length - i < sig.length := by
        rcases Nat.lt_or_ge (d.length - i) sig.length with h' | h'
        · exact h'
        · refine absurd (hp.eq_of_length (by simp; omega)) ?_
          have := hno (S.length + i)
          rwa [← List.drop_drop, List.drop_left] at this
      have hc : (d.drop i).take sig.length = d.drop i := List.take_of_length_le (by simp; omega)
      rw [hc] at hp
      refine ⟨e1, e2, ?_, ?_, ?_, ?_⟩ <;> dsimp only <;> rw [hc]
      · exact (List.drop_suffix _ _).trans (List.suffix_append _ _)
      · exact hp
      · simp; omega
      · simp; omega
  obtain ⟨e1, e2⟩ := And.intro h.isSig h.isLen
  subst e1 e2
  unfold stepTrack
  rw [if_pos (Or.inr h.short)]
  by_cases hc : t.checkBytes = []
  · rw [extend_nil d hc, if_pos hc]
    exact hscan t rfl rfl hc (by have := h.few; rw [hc] at this; simpa using this)
  · have hpos := List.length_pos_iff.2 hc
    by_cases hpre : (t.checkBytes ++ d).take t.sig.length <+: t.sig
    · rw [extend_more hc h.short hpre]
      obtain ⟨i, hi, hd⟩ := tail_drop h.tail d
      have hlt : t.checkBytes.length + d.length < t.sig.length := by
        rcases Nat.lt_or_ge (t.checkBytes.length + d.length) t.sig.length with h' | h'
        · exact h'
        · refine absurd (hpre.eq_of_length (by simp; omega)) ?_
          have := hno i
          rwa [hd] at this
      have htake : (t.checkBytes ++ d).take t.sig.length = t.checkBytes ++ d := List.take_of_length_le (by simp; omega)
      rw [htake] at hpre ⊢
      have hne : t.checkBytes ++ d ≠ [] := fun e => hc (List.append_eq_nil_iff.1 e).1
      rw [if_neg hne]
      refine ⟨rfl, rfl, ?_, hpre, ?_, ?_⟩ <;> dsimp only
      · obtain ⟨x, hx⟩ := h.tail
        exact ⟨x, by rw [← hx]; simp⟩
      · simp; omega
      · simp; omega
    · rw [extend_reset hc h.short hpre, if_pos rfl]
      exact hscan _ rfl rfl rfl rfl

theorem Waiting.start {sig : Bytes} {len : Nat} {S d : Bytes} {t : TrackData} (h : Waiting sig len S t) (pos : Nat) {k : Nat}
    (hk : k < d.length) (hpre : (d.drop k).take sig.length <+: sig)
    (hno : ∀ i < S.length + k, ¬ ((S ++ d).drop i).take sig.length <+: sig) :
    WmvFound sig len (pos + k) (d.drop k) (stepTrack t pos d) := by
  have hdk : d.drop k ≠ [] := by rw [Ne, List.drop_eq_nil_iff]; omega
  have hsig : sig ≠ [] := by
    intro e
    have := h.short
    rw [e] at this
    simp at this
  have hs : aviScan sig d = some k := aviScan_some hsig hdk (fun i hi => by
    have := hno (S.length + i) (by omega)
    rwa [← List.drop_drop, List.drop_left] at this) hpre
  obtain ⟨e1, e2⟩ := And.intro h.isSig h.isLen
  subst e1 e2
  unfold stepTrack
  rw [if_pos (Or.inr h.short), hs]
  by_cases hc : t.checkBytes = []
  · rw [extend_nil d hc, if_pos hc]
    exact ⟨rfl, rfl, by simp, rfl, hdk⟩
  · obtain ⟨i, hi, hd⟩ := tail_drop h.tail d
    have hpos := List.length_pos_iff.2 hc
    have hnot := hno i (by omega)
    rw [hd] at hnot
    rw [extend_reset hc h.short hnot, if_pos rfl]
    exact ⟨rfl, rfl, by simp, rfl, hdk⟩

theorem WmvFound.step {sig : Bytes} {len off : Nat} {T d : Bytes} {t : TrackData} (h : WmvFound sig len off T t) (pos : Nat) (hoff : 0 < off)
    (hsig : sig ≠ []) (hpre : (T ++ d).take sig.length <+: sig) : WmvFound sig len off (T ++ d) (stepTrack t pos d) := by
  have hs1 := List.length_pos_iff.2 hsig
  have hT1 := List.length_pos_iff.2 h.some
  have hne : T ++ d ≠ [] := by intro e; exact h.some (List.append_eq_nil_iff.1 e).1
  have hlen : t.checkBytes.length = min sig.length T.length := by rw [h.check]; simp
  obtain ⟨e1, e2⟩ := And.intro h.isSig h.isLen
  subst e1 e2
  unfold stepTrack
  by_cases hc : t.checkBytes.length < t.sig.length
  · rw [if_pos (Or.inr hc)]
    have hT : t.checkBytes = T := by rw [h.check]; exact List.take_of_length_le (by omega)
    have hc0 : t.checkBytes ≠ [] := by rw [hT]; exact h.some
    rw [extend_more hc0 hc (by rw [hT]; exact hpre), if_neg (by
      dsimp only; rw [hT]; intro e
      rcases List.take_eq_nil_iff.1 e with e | e
      · omega
      · exact hne e)]
    exact ⟨rfl, rfl, h.off, by rw [hT], hne⟩
  · have ho := h.off
    rw [if_neg (by omega)]
    have hck : t.checkBytes = (T ++ d).take t.sig.length := by
      rw [h.check, List.take_append_of_le_length (by omega)]
    split
    · exact ⟨rfl, rfl, h.off, hck, hne⟩
    · exact ⟨rfl, rfl, h.off, hck, hne⟩

theorem extendTrack_number (t : TrackData) (d : Bytes) : (extendTrack t d).number = t.number := by
  unfold extendTrack
  split
  · dsimp only; split <;> rfl
  · rfl

theorem extendTrack_flags (t : TrackData) (d : Bytes) : (extendTrack t d).flags = t.flags := by
  unfold extendTrack
  split
  · dsimp only; split <;> rfl
  · rfl

theorem stepTrack_number (t : TrackData) (pos : Nat) (d : Bytes) : (stepTrack t pos d).number = t.number := by
  unfold stepTrack
  split
  · split
    · split
      · exact extendTrack_number t d
      · exact extendTrack_number t d
    · exact extendTrack_number t d
  · split <;> rfl

theorem stepTrack_flags (t : TrackData) (pos : Nat) (d : Bytes) : (stepTrack t pos d).flags = t.flags := by
  unfold stepTrack
  split
  · split
    · split
      · exact extendTrack_flags t d
      · exact extendTrack_flags t d
    · exact extendTrack_flags t d
  · split <;> rfl

/-! ### Places -/

/-- The places of payloads, as the reader counts them: what comes before the payloads of a packet is not
counted. -/
def placed : Nat → List WmvPiece → List (Nat × WmvPiece)
  | _, [] => []
  | prev, p :: ps => (prev + p.head.length, p) :: placed (prev + p.data.length + p.head.length) ps

def placedAll (psize : Nat) : Nat → List WmvPacket → List (Nat × WmvPiece)
  | _, [] => []
  | off, p :: ps => placed off p.pieces ++ placedAll psize (off + psize) ps

theorem placed_pieces : ∀ (prev : Nat) (ps : List WmvPiece), (placed prev ps).map (·.2) = ps
  | _, [] => rfl
  | prev, p :: ps => by simp [placed, placed_pieces]

theorem placedAll_pieces (psize : Nat) : ∀ (off : Nat) (ps : List WmvPacket), (placedAll psize off ps).map (·.2) = ps.flatMap WmvPacket.pieces
  | _, [] => rfl
  | off, p :: ps => by simp [placedAll, placed_pieces, placedAll_pieces psize _ ps]

theorem pieces_head {p : WmvPacket} {q : WmvPiece} (h : q ∈ p.pieces) : 0 < q.head.length := by
  simp only [WmvPacket.pieces, List.mem_flatMap] at h
  obtain ⟨x, _, hq⟩ := h
  unfold WmvPayload.pieces at hq
  cases hc : x.content with
  | plain d => rw [hc] at hq; simp only [List.mem_singleton] at hq; rw [hq]; simp [WmvPayload.head]
  | runs d ds =>
    rw [hc] at hq
    simp only [List.mem_cons, List.mem_map] at hq
    rcases hq with rfl | ⟨_, _, rfl⟩
    · simp
    · simp [runPiece]

theorem placed_bounds : ∀ {ps : List WmvPiece} {prev : Nat}, (∀ q ∈ ps, 0 < q.head.length) → ∀ x ∈ placed prev ps,
    prev < x.1 ∧ x.1 + x.2.data.length ≤ prev + (shown false ps).length
  | [], _, _, x, hx => by simp [placed] at hx
  | p :: ps, prev, h, x, hx => by
    simp only [placed, List.mem_cons] at hx
    have hp := h p List.mem_cons_self
    simp only [shown_cons, List.length_append, Bool.false_eq_true, if_false]
    rcases hx with rfl | hx
    · dsimp only; omega
    · have := placed_bounds (fun q hq => h q (List.mem_cons_of_mem _ hq)) x hx
      omega

def Ascending (l : List (Nat × WmvPiece)) : Prop := l.Pairwise fun x y => x.1 + x.2.data.length < y.1

theorem placed_ascending : ∀ {ps : List WmvPiece} {prev : Nat}, (∀ q ∈ ps, 0 < q.head.length) → Ascending (placed prev ps)
  | [], _, _ => List.Pairwise.nil
  | p :: ps, prev, h => by
    refine List.Pairwise.cons ?_ (placed_ascending fun q hq => h q (List.mem_cons_of_mem _ hq))
    intro x hx
    have := placed_bounds (fun q hq => h q (List.mem_cons_of_mem _ hq)) x hx
    dsimp only; omega

theorem packet_bounds {psize off : Nat} {p : WmvPacket} (hp : p.Ok psize) : ∀ x ∈ placed off p.pieces,
    off < x.1 ∧ x.1 + x.2.data.length ≤ off + psize := by
  intro x hx
  have h1 := placed_bounds (fun q hq => pieces_head hq) x hx
  have h2 := hp.total
  rw [p.bytes_eq] at h2
  simp only [List.length_append] at h2
  omega

theorem placedAll_bounds {psize : Nat} : ∀ {ps : List WmvPacket} {off : Nat}, (∀ p ∈ ps, p.Ok psize) → ∀ x ∈ placedAll psize off ps, off < x.1
  | [], _, _, x, hx => by simp [placedAll] at hx
  | p :: ps, off, h, x, hx => by
    simp only [placedAll, List.mem_append] at hx
    rcases hx with hx | hx
    · exact (packet_bounds (h p List.mem_cons_self) x hx).1
    · have := placedAll_bounds (fun q hq => h q (List.mem_cons_of_mem _ hq)) x hx
      omega

theorem placedAll_ascending {psize : Nat} : ∀ {ps : List WmvPacket} {off : Nat}, (∀ p ∈ ps, p.Ok psize) → Ascending (placedAll psize off ps)
  | [], _, _ => List.Pairwise.nil
  | p :: ps, off, h => by
    refine List.pairwise_append.2 ⟨placed_ascending fun q hq => pieces_head hq, placedAll_ascending fun q hq => h q (List.mem_cons_of_mem _ hq), ?_⟩
    intro x hx y hy
    have h1 := packet_bounds (h p List.mem_cons_self) x hx
    have h2 := placedAll_bounds (fun q hq => h q (List.mem_cons_of_mem _ hq)) y hy
    omega

/-! ### The search -/

def piecesOf (l : List (Nat × WmvPiece)) : List WmvPiece := l.map (·.2)

theorem piecesOf_append (a b : List (Nat × WmvPiece)) : piecesOf (a ++ b) = piecesOf a ++ piecesOf b := by simp [piecesOf]
theorem piecesOf_cons (a : Nat × WmvPiece) (b : List (Nat × WmvPiece)) : piecesOf (a :: b) = a.2 :: piecesOf b := rfl

theorem streamData_cons (p : WmvPiece) (ps : List WmvPiece) (n : Nat) : streamData (p :: ps) n = (if p.stream = n then p.data else []) ++ streamData ps n := by
  simp [streamData]

/-- Where a stream of the sample starts. -/
structure StartAt (sp : List WmvPiece) (L : List (Nat × WmvPiece)) (n : Nat) (A : List (Nat × WmvPiece)) (q : Nat) (p : WmvPiece) (k : Nat)
    (B : List (Nat × WmvPiece)) : Prop where
  used : streamData sp n ≠ []
  eq : L = A ++ (q, p) :: B
  starts : StartsIn (streamData sp n) n (piecesOf A) p k (piecesOf B)

structure WmvInv (sp : List WmvPiece) (L : List (Nat × WmvPiece)) (ts0 : Tracks) (D : List (Nat × WmvPiece)) (ts : Tracks) : Prop where
  distinct : ts.Pairwise (fun a b => a.1 ≠ b.1)
  keys : trackKeys ts = trackKeys ts0
  other : ∀ n, streamData sp n = [] → ts.getNew n = ts0.getNew n
  plain : (∀ x ∈ ts0, x.1 = x.2.number ∧ x.2.flags = 0) → ∀ x ∈ ts, x.1 = x.2.number ∧ x.2.flags = 0
  waiting : ∀ {n A q p k B}, StartAt sp L n A q p k B → ∀ A', A = D ++ A' →
    Waiting ((streamData sp n).take 256) (streamData sp n).length (streamData (piecesOf D) n) (ts.getNew n)
  found : ∀ {n A q p k B}, StartAt sp L n A q p k B → ∀ B', D = A ++ (q, p) :: B' →
    WmvFound ((streamData sp n).take 256) (streamData sp n).length (q + k) (p.data.drop k ++ streamData (piecesOf B') n) (ts.getNew n)

theorem StartAt.no_full {sp : List WmvPiece} {L : List (Nat × WmvPiece)} {n : Nat} {A : List (Nat × WmvPiece)} {q : Nat} {p : WmvPiece} {k : Nat}
    {B : List (Nat × WmvPiece)} (h : StartAt sp L n A q p k B) {S : Bytes} (hS : S <+: streamData (piecesOf A) n) (i : Nat) :
    (S.drop i).take ((streamData sp n).take 256).length ≠ (streamData sp n).take 256 := by
  intro e
  obtain ⟨r, hr⟩ := hS
  generalize hsig : (streamData sp n).take 256 = sig at e
  have hne : sig ≠ [] := by
    rw [← hsig]
    intro e
    rcases List.take_eq_nil_iff.1 e with e | e
    · simp at e
    · exact h.used e
  have hl := congrArg List.length e
  have hpos := List.length_pos_iff.2 hne
  simp only [List.length_take, List.length_drop] at hl
  have hf := h.starts.fresh i (by rw [← hr, List.length_append]; omega)
  rw [hsig] at hf
  apply hf
  rw [← hr, List.append_assoc, List.drop_append_of_le_length (by omega), List.take_append_of_le_length (by simp; omega), e]
  exact List.prefix_refl _

theorem StartAt.place_pos {sp : List WmvPiece} {L : List (Nat × WmvPiece)} {n : Nat} {A : List (Nat × WmvPiece)} {q : Nat} {p : WmvPiece} {k : Nat}
    {B : List (Nat × WmvPiece)} (h : StartAt sp L n A q p k B) (hL : ∀ x ∈ L, 0 < x.1) : 0 < q := by
  have := hL (q, p) (by rw [h.eq]; simp)
  exact this

theorem Waiting.numbered {sig : Bytes} {len : Nat} {S : Bytes} {t : TrackData} (h : Waiting sig len S t) (n : Nat) :
    Waiting sig len S { t with number := n } := ⟨h.isSig, h.isLen, h.tail, h.pre, h.short, h.few⟩

theorem WmvFound.numbered {sig : Bytes} {len off : Nat} {T : Bytes} {t : TrackData} (h : WmvFound sig len off T t) (n : Nat) :
    WmvFound sig len off T { t with number := n } := ⟨h.isSig, h.isLen, h.off, h.check, h.some⟩

theorem sig_ne {sp : List WmvPiece} {n : Nat} (h : streamData sp n ≠ []) : (streamData sp n).take 256 ≠ [] := by
  intro e
  rcases List.take_eq_nil_iff.1 e with e | e
  · simp at e
  · exact h e

theorem WmvInv.put {sp : List WmvPiece} {L : List (Nat × WmvPiece)} {ts0 : Tracks} {D R : List (Nat × WmvPiece)} {ts : Tracks}
    {x : Nat × WmvPiece} (hL : L = D ++ x :: R) (hpos : ∀ x ∈ L, 0 < x.1) (hused : streamData sp x.2.stream ≠ [])
    (hkey : ∀ n, streamData sp n ≠ [] → n ∈ trackKeys ts0) (h : WmvInv sp L ts0 D ts) :
    WmvInv sp L ts0 (D ++ [x]) (ts.put x.2.stream (stepTrack (ts.getNew x.2.stream) x.1 x.2.data)) := by
  refine ⟨pairwise_put h.distinct, ?_, ?_, ?_, ?_, ?_⟩
  · rw [keys_put, if_pos (h.keys ▸ hkey _ hused), h.keys]
  · intro n hn
    rw [getNew_put, if_neg (fun e : n = x.2.stream => hused (e ▸ hn))]
    exact h.other n hn
  · intro h0 y hy
    rw [mem_put h.distinct] at hy
    obtain ⟨t, ht, hf⟩ : ∃ t, (x.2.stream, t) ∈ ts ∧ ts.getNew x.2.stream = { t with number := x.2.stream } := by
      have hm : x.2.stream ∈ trackKeys ts := by rw [h.keys]; exact hkey _ hused
      obtain ⟨z, hz, he⟩ := List.mem_map.1 hm
      rw [← he]
      exact ⟨z.2, hz, getNew_of_mem h.distinct hz⟩
    have hp := h.plain h0 _ ht
    rcases hy with hy | hy
    · rw [hy]
      have h1 := stepTrack_number (ts.getNew x.2.stream) x.1 x.2.data
      have h2 := stepTrack_flags (ts.getNew x.2.stream) x.1 x.2.data
      rw [hf] at h1 h2 ⊢
      exact ⟨h1.symm, h2.trans hp.2⟩
    · exact h.plain h0 y hy.1
  · intro n A q p k B hst A' hA
    have hw := h.waiting hst (x :: A') (by rw [hA]; simp)
    rw [getNew_put, piecesOf_append, streamData_append, show piecesOf [x] = [x.2] from rfl, streamData_single]
    by_cases hn : n = x.2.stream
    · rw [if_pos hn, if_pos hn.symm, ← hn]
      refine (hw.step x.1 (by simp; omega) fun i => hst.no_full ?_ i).numbered n
      rw [hA, piecesOf_append, streamData_append, piecesOf_append, streamData_append, show piecesOf [x] = [x.2] from rfl, streamData_single,
        if_pos hn.symm]
      exact List.prefix_append _ _
    · rw [if_neg hn, if_neg (fun e => hn e.symm), List.append_nil]
      exact hw
  · intro n A q p k B hst B' hB
    have hpre : ∀ B'' : List (Nat × WmvPiece), (∃ C, B = B'' ++ C) →
        (p.data.drop k ++ streamData (piecesOf B'') n).take ((streamData sp n).take 256).length <+: (streamData sp n).take 256 := by
      rintro B'' ⟨C, rfl⟩
      refine take_prefix_of (T := p.data.drop k ++ streamData (piecesOf (B'' ++ C)) n) ?_ ((List.take_prefix _ _).trans hst.starts.data)
      rw [piecesOf_append, streamData_append, ← List.append_assoc]
      exact List.prefix_append _ _
    rcases List.eq_nil_or_concat B' with rfl | ⟨B'', y, rfl⟩
    · obtain ⟨rfl, hx⟩ := List.append_inj' hB rfl
      simp only [List.cons.injEq, and_true] at hx
      subst hx
      have hw := h.waiting hst [] (by simp)
      have hn : p.stream = n := hst.starts.stream
      rw [getNew_put, if_pos hn.symm]
      dsimp only
      rw [hn]
      have := hpre [] ⟨B, rfl⟩
      simp only [piecesOf, List.map_nil, streamData, List.flatMap_nil, List.append_nil] at this ⊢
      exact (hw.start q hst.starts.inside this hst.starts.fresh).numbered n
    · rw [← List.concat_eq_append] at hB
      have hB' : D ++ [x] = (A ++ (q, p) :: B'') ++ [y] := by simpa using hB
      obtain ⟨hD, hx⟩ := List.append_inj' hB' rfl
      simp only [List.cons.injEq, and_true] at hx
      subst hx
      have hf := h.found hst B'' hD
      rw [List.concat_eq_append, getNew_put, piecesOf_append, streamData_append, show piecesOf [x] = [x.2] from rfl, streamData_single]
      by_cases hn : n = x.2.stream
      · rw [if_pos hn, if_pos hn.symm, ← hn, ← List.append_assoc]
        refine (hf.step x.1 (by have := hst.place_pos hpos; omega) (sig_ne hst.used) ?_).numbered n
        have hB : B = (B'' ++ [x]) ++ R := by
          have h1 := hst.eq
          rw [hL, hD] at h1
          have h2 : (A ++ [(q, p)]) ++ (B'' ++ x :: R) = (A ++ [(q, p)]) ++ B := by simpa using h1
          have := List.append_cancel_left h2
          simp [← this]
        have := hpre (B'' ++ [x]) ⟨R, hB⟩
        rw [piecesOf_append, streamData_append, show piecesOf [x] = [x.2] from rfl, streamData_single, if_pos hn.symm, ← List.append_assoc] at this
        exact this
      · rw [if_neg hn, if_neg (fun e => hn e.symm), List.append_nil]
        exact hf

/-- All streams were found. -/
structure WmvLocated (sp : List WmvPiece) (L : List (Nat × WmvPiece)) (ts0 ts : Tracks) : Prop where
  distinct : ts.Pairwise (fun a b => a.1 ≠ b.1)
  keys : trackKeys ts = trackKeys ts0
  other : ∀ n, streamData sp n = [] → ts.getNew n = ts0.getNew n
  plain : (∀ x ∈ ts0, x.1 = x.2.number ∧ x.2.flags = 0) → ∀ x ∈ ts, x.1 = x.2.number ∧ x.2.flags = 0
  place : ∀ {n A q p k B}, StartAt sp L n A q p k B → (ts.getNew n).sig = (streamData sp n).take 256 ∧
    (ts.getNew n).dataLength = (streamData sp n).length ∧ (ts.getNew n).matchOffset = ((q + k : Nat) : Int)

/-- All streams have started. -/
def AllStarted (sp : List WmvPiece) (L D : List (Nat × WmvPiece)) : Prop :=
  ∀ n A q p k B, StartAt sp L n A q p k B → ∃ B', D = A ++ (q, p) :: B'

theorem AllStarted.more {sp : List WmvPiece} {L D : List (Nat × WmvPiece)} (h : AllStarted sp L D) (x : Nat × WmvPiece) :
    AllStarted sp L (D ++ [x]) := by
  intro n A q p k B hst
  obtain ⟨B', hB⟩ := h _ _ _ _ _ _ hst
  exact ⟨B' ++ [x], by rw [hB]; simp⟩

theorem WmvInv.located {sp : List WmvPiece} {L D : List (Nat × WmvPiece)} {ts0 : Tracks} {ts : Tracks}
    (h : WmvInv sp L ts0 D ts) (hd : AllStarted sp L D) : WmvLocated sp L ts0 ts := by
  refine ⟨h.distinct, h.keys, h.other, h.plain, fun {n A q p k B} hst => ?_⟩
  obtain ⟨B', hB⟩ := hd _ _ _ _ _ _ hst
  have hf := h.found hst B' hB
  exact ⟨hf.isSig, hf.isLen, hf.off⟩

/-- When the search stops since all is there, all was found. -/
theorem WmvInv.started_of_stop {sp : List WmvPiece} {L : List (Nat × WmvPiece)} {ts0 : Tracks} {D R : List (Nat × WmvPiece)} {ts : Tracks}
    (h : WmvInv sp L ts0 D ts) (hL : L = D ++ R) (hkey : ∀ n, streamData sp n ≠ [] → n ∈ trackKeys ts0)
    (hall : ∀ x ∈ ts, x.2.dataLength ≤ x.2.matchLength) : AllStarted sp L D := by
  intro n A q p k B hst
  have hmem : n ∈ trackKeys ts := by rw [h.keys]; exact hkey n hst.used
  obtain ⟨x, hx, rfl⟩ := List.mem_map.1 hmem
  have hle : (ts.getNew x.1).dataLength ≤ (ts.getNew x.1).matchLength := by
    rw [getNew_of_mem h.distinct hx]
    exact hall x hx
  have he := hst.eq
  rw [hL] at he
  rcases List.append_eq_append_iff.1 he with ⟨A', hA, _⟩ | ⟨B', hD, hR⟩
  · have hw := h.waiting hst A' hA
    have h1 := hw.few
    have h2 := hw.short
    have h3 := hw.isLen
    simp only [List.length_take] at h2
    omega
  · cases B' with
    | nil =>
      have hw := h.waiting hst [] (by rw [hD]; simp)
      have h1 := hw.few
      have h2 := hw.short
      have h3 := hw.isLen
      simp only [List.length_take] at h2
      omega
    | cons y B' =>
      simp only [List.cons_append, List.cons.injEq] at hR
      obtain ⟨hy, _⟩ := hR
      subst hy
      exact ⟨B', hD⟩

/-- The payloads of a packet. -/
theorem wmvFindPayloads_ok {sp : List WmvPiece} {L : List (Nat × WmvPiece)} {ts0 : Tracks} (hpos : ∀ x ∈ L, 0 < x.1)
    (hused : ∀ x ∈ L, streamData sp x.2.stream ≠ []) (hkey : ∀ n, streamData sp n ≠ [] → n ∈ trackKeys ts0)
    (hsig : ∀ n, streamData sp n ≠ [] → ∃ A q p k B, StartAt sp L n A q p k B) :
    ∀ {ps : List WmvPiece} {prev : Nat} {D R : List (Nat × WmvPiece)} {s : Tracks × Bool}, L = D ++ (placed prev ps ++ R) →
      WmvInv sp L ts0 D s.1 → (s.2 = true → AllStarted sp L D) →
      ∃ s', wmvFindPayloads (ps.map (asfOf false)) prev s = .ok s' ∧ WmvInv sp L ts0 (D ++ placed prev ps) s'.1 ∧
        (s'.2 = true → AllStarted sp L (D ++ placed prev ps)) := by
  intro ps
  induction ps with
  | nil => intro prev D R s _ h1 h2; exact ⟨s, rfl, by simpa [placed] using h1, by simpa [placed] using h2⟩
  | cons p ps ih =>
    intro prev D R s hL h1 h2
    have hL' : L = D ++ (prev + p.head.length, p) :: (placed (prev + p.data.length + p.head.length) ps ++ R) := by
      rw [hL]; simp [placed]
    have hu : streamData sp p.stream ≠ [] := hused (prev + p.head.length, p) (by rw [hL']; simp)
    have hs0 : (s.1.getNew p.stream).sig ≠ [] := by
      obtain ⟨A, q, p', k, B, hst⟩ := hsig _ hu
      have he := hst.eq
      rw [hL'] at he
      have : (s.1.getNew p.stream).sig = (streamData sp p.stream).take 256 := by
        rcases List.append_eq_append_iff.1 he with ⟨A', hA, _⟩ | ⟨B', hD, hR⟩
        · exact (h1.waiting hst A' hA).isSig
        · cases B' with
          | nil => exact (h1.waiting hst [] (by rw [hD]; simp)).isSig
          | cons y B' =>
            simp only [List.cons_append, List.cons.injEq] at hR
            obtain ⟨hy, _⟩ := hR
            subst hy
            exact (h1.found hst B' hD).isSig
      rw [this]
      exact sig_ne hu
    obtain ⟨done, hstep, hdone⟩ := wmvFindPayload_step (prev := prev) hs0
    have hinv := h1.put (x := (prev + p.head.length, p)) hL' hpos hu hkey
    have hloc : done = true → AllStarted sp L (D ++ [(prev + p.head.length, p)]) := by
      intro hd
      rcases hdone hd with hd | hd
      · exact AllStarted.more (h2 hd) _
      · exact hinv.started_of_stop (R := placed (prev + p.data.length + p.head.length) ps ++ R) (by rw [hL']; simp) hkey hd
    obtain ⟨s', hs', h3, h4⟩ := ih (prev := prev + p.data.length + p.head.length) (D := D ++ [(prev + p.head.length, p)]) (R := R)
      (s := (s.1.put p.stream (stepTrack (s.1.getNew p.stream) (prev + p.head.length) p.data), done)) (hL'.trans (by simp)) hinv hloc
    refine ⟨s', ?_, by simpa [placed] using h3, by simpa [placed] using h4⟩
    rw [List.map_cons, wmvFindPayloads, hstep]
    exact hs'

end Rescene
