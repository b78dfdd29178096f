import Verif.Model.Wmv
import Verif.Spec.Wmv
import Verif.Lemmas.Riff
/-
Reading the packets of a WMV file and of its SRS.
-/
namespace Rescene
open Spec

theorem unpack_mid {k off : Nat} (pre f post : Bytes) (hp : pre.length = off) (hf : f.length = k) :
    unpackAt k (pre ++ (f ++ post)) off = .ok (ofLe f) := by
  have := unpackAt_append (k := k) (n := ofLe f) pre post hp (by rw [← hf]; exact ofLe_lt f)
  rw [← hf, le_ofLe] at this
  rw [← hf]
  exact this

theorem asfFieldLen_eq {bits : Nat} (h : bits < 4) : asfFieldLen bits = fieldSize bits := by
  match bits, h with
  | 0, _ => rfl
  | 1, _ => rfl
  | 2, _ => rfl
  | 3, _ => rfl

theorem asfFieldValue_mid {bits off : Nat} (pre f post : Bytes) (hb : bits < 4) (hp : pre.length = off)
    (hf : f.length = fieldSize bits) : asfFieldValue bits (pre ++ (f ++ post)) off = .ok (ofLe f) := by
  unfold asfFieldValue
  split
  · rename_i h
    subst h
    rw [List.length_eq_zero_iff.1 hf]
    rfl
  · rw [asfFieldLen_eq hb]
    exact unpack_mid pre f post hp hf

theorem byte_mid {off : Nat} (pre : Bytes) (b : UInt8) (post : Bytes) (hp : pre.length = off) :
    unpackAt 1 (pre ++ (b :: post)) off = .ok b.toNat := by
  have := unpack_mid (k := 1) pre [b] post hp rfl
  simpa [ofLe] using this

theorem mid_slice {a b : Nat} (pre mid post : Bytes) (ha : pre.length = a) (hb : a + mid.length = b) :
    slice (pre ++ (mid ++ post)) a b = mid := by
  subst ha hb
  simp [slice, List.take_append]

/-- A payload as the reader gives it. -/
def asfOf (srs : Bool) (q : WmvPiece) : AsfPayload := ⟨q.stream, q.head.length, q.head, q.data.length, if srs then [] else q.data⟩

/-- What a file or an SRS has of the pieces. -/
def shown (srs : Bool) (ps : List WmvPiece) : Bytes := ps.flatMap fun x => x.head ++ if srs then [] else x.data

@[simp] theorem shown_nil (srs : Bool) : shown srs [] = [] := rfl
@[simp] theorem shown_cons (srs : Bool) (p : WmvPiece) (ps : List WmvPiece) :
    shown srs (p :: ps) = p.head ++ ((if srs then [] else p.data) ++ shown srs ps) := by simp [shown]
@[simp] theorem shown_append (srs : Bool) (a b : List WmvPiece) : shown srs (a ++ b) = shown srs a ++ shown srs b := by simp [shown]

/-- Length of runs with their lengths. -/
def runsLength (ds : List Bytes) : Nat := (ds.map fun x => 1 + x.length).sum

@[simp] theorem runsLength_nil : runsLength [] = 0 := rfl
@[simp] theorem runsLength_cons (d : Bytes) (ds : List Bytes) : runsLength (d :: ds) = 1 + d.length + runsLength ds := by simp [runsLength]

def runPieces (stream : Nat) (ds : List Bytes) : List WmvPiece := ds.map (runPiece stream)

@[simp] theorem runPieces_nil (s : Nat) : runPieces s [] = [] := rfl
@[simp] theorem runPieces_cons (s : Nat) (d : Bytes) (ds : List Bytes) : runPieces s (d :: ds) = runPiece s d :: runPieces s ds := rfl

/-- Counting the runs. -/
theorem asfCount_ok {srs : Bool} {s : Nat} {data : Bytes} {start : Nat} {len : Int} {more : Bytes} :
    ∀ {ds : List Bytes} {fuel used turns : Nat} {pre : Bytes}, (∀ d ∈ ds, d.length < 256) →
    data = pre ++ (shown srs (runPieces s ds) ++ more) → pre.length = start + (if srs then turns else used) →
    len = (used + runsLength ds : Nat) → runsLength ds ≤ fuel → asfCount srs data start len fuel used turns = .ok ds.length := by
  intro ds
  induction ds with
  | nil =>
    intro fuel used turns pre _ _ _ hl _
    cases fuel with
    | zero => rw [asfCount, if_pos (by simp [hl])]; rfl
    | succ f => rw [asfCount, if_neg (by simp [hl]), if_pos (by simp [hl])]; rfl
  | cons d ds ih =>
    intro fuel used turns pre hd hdata hp hl hf
    rw [runsLength_cons] at hf hl
    cases fuel with
    | zero => omega
    | succ f =>
      have hlt := hd d List.mem_cons_self
      rw [asfCount, if_pos (by omega), ← hp]
      rw [show unpackAt 1 data pre.length = .ok d.length by
        rw [hdata, runPieces_cons, shown_cons]
        simp only [runPiece, List.cons_append, List.nil_append, List.append_assoc]
        rw [byte_mid _ _ _ rfl, toNat_ofNat_lt hlt]]
      simp only [ok_bind]
      rw [ih (pre := pre ++ ([UInt8.ofNat d.length] ++ if srs then [] else d)) (fun x hx => hd x (List.mem_cons_of_mem _ hx))
        (by rw [hdata]; simp [runPiece]) ?_ (by omega) (by omega)]
      · rfl
      · cases srs <;> simp <;> simp at hp <;> omega

/-- Reading the runs. -/
theorem asfCompressed_ok {srs : Bool} {s : Nat} {data : Bytes} {more : Bytes} :
    ∀ {ds : List Bytes} {pre : Bytes}, (∀ d ∈ ds, d.length < 256) →
    data = pre ++ (shown srs (runPieces s ds) ++ more) →
    asfCompressed srs data s ds.length 0 pre.length =
      .ok ((runPieces s ds).map (asfOf srs), pre.length + (shown srs (runPieces s ds)).length) := by
  intro ds
  induction ds with
  | nil => intro pre _ _; rfl
  | cons d ds ih =>
    intro pre hd hdata
    have hlt := hd d List.mem_cons_self
    rw [List.length_cons, asfCompressed]
    rw [show unpackAt 1 data pre.length = .ok d.length by
      rw [hdata, runPieces_cons, shown_cons]
      simp only [runPiece, List.cons_append, List.nil_append, List.append_assoc]
      rw [byte_mid _ _ _ rfl, toNat_ofNat_lt hlt]]
    simp only [ok_bind]
    have hnext : (if srs then pre.length + 1 else pre.length + 1 + d.length) =
        (pre ++ ([UInt8.ofNat d.length] ++ if srs then [] else d)).length := by
      cases srs <;> simp; omega
    have hs : slice data (pre.length + 1 - (0 + 1)) (pre.length + 1) = [UInt8.ofNat d.length] := by
      rw [Nat.add_sub_cancel, hdata, runPieces_cons, shown_cons]
      simp only [runPiece, List.append_assoc]
      exact mid_slice _ _ _ rfl rfl
    have hdat : (if srs then [] else slice data (pre.length + 1) (pre.length + 1 + d.length)) = if srs then [] else d := by
      cases srs
      · rw [if_neg (by simp), if_neg (by simp), hdata, runPieces_cons, shown_cons]
        have := mid_slice (pre ++ [UInt8.ofNat d.length]) d (shown false (runPieces s ds) ++ more) (a := pre.length + 1)
          (b := pre.length + 1 + d.length) (by simp) rfl
        simpa [runPiece] using this
      · rfl
    rw [hs, hdat, hnext, ih (fun x hx => hd x (List.mem_cons_of_mem _ hx)) (by rw [hdata]; simp [runPiece])]
    simp only [ok_bind, pure_eq_ok, Except.ok.injEq, Prod.mk.injEq, runPieces_cons, List.map_cons, List.cons.injEq, and_true, true_and]
    refine ⟨rfl, ?_⟩
    simp [runPiece]
    omega

/-- Reading the runs of a payload: the first has the header of the payload. -/
theorem asfCompressed_first {srs : Bool} {s : Nat} {data h d more : Bytes} {ds : List Bytes} {pre : Bytes}
    (hd : ∀ x ∈ d :: ds, x.length < 256)
    (hdata : data = pre ++ (shown srs (⟨s, h ++ [UInt8.ofNat d.length], d⟩ :: runPieces s ds) ++ more)) :
    asfCompressed srs data s (ds.length + 1) h.length (pre.length + h.length) =
      .ok ((⟨s, h ++ [UInt8.ofNat d.length], d⟩ :: runPieces s ds).map (asfOf srs),
        pre.length + (shown srs (⟨s, h ++ [UInt8.ofNat d.length], d⟩ :: runPieces s ds)).length) := by
  have hlt := hd d List.mem_cons_self
  rw [asfCompressed]
  rw [show unpackAt 1 data (pre.length + h.length) = .ok d.length by
    rw [hdata, shown_cons]
    simp only [List.append_assoc, List.cons_append, List.nil_append]
    rw [← List.append_assoc pre h, byte_mid _ _ _ (by simp), toNat_ofNat_lt hlt]]
  simp only [ok_bind]
  have hnext : (if srs then pre.length + h.length + 1 else pre.length + h.length + 1 + d.length) =
      (pre ++ (h ++ [UInt8.ofNat d.length] ++ if srs then [] else d)).length := by
    cases srs <;> simp <;> omega
  have hs : slice data (pre.length + h.length + 1 - (h.length + 1)) (pre.length + h.length + 1) = h ++ [UInt8.ofNat d.length] := by
    rw [show pre.length + h.length + 1 - (h.length + 1) = pre.length by omega, hdata, shown_cons]
    simp only [List.append_assoc]
    have := mid_slice pre (h ++ [UInt8.ofNat d.length]) ((if srs then [] else d) ++ (shown srs (runPieces s ds) ++ more))
      (a := pre.length) (b := pre.length + h.length + 1) rfl (by simp; omega)
    simpa using this
  have hdat : (if srs then [] else slice data (pre.length + h.length + 1) (pre.length + h.length + 1 + d.length)) =
      if srs then [] else d := by
    cases srs
    · rw [if_neg (by simp), if_neg (by simp), hdata, shown_cons]
      have := mid_slice (pre ++ (h ++ [UInt8.ofNat d.length])) d (shown false (runPieces s ds) ++ more) (a := pre.length + h.length + 1)
        (b := pre.length + h.length + 1 + d.length) (by simp; omega) rfl
      simpa using this
    · rfl
  rw [hs, hdat, hnext, asfCompressed_ok (s := s) (more := more) (fun x hx => hd x (List.mem_cons_of_mem _ hx)) (by rw [hdata]; simp)]
  simp only [ok_bind, pure_eq_ok, Except.ok.injEq, Prod.mk.injEq, List.map_cons, List.cons.injEq, and_true]
  refine ⟨?_, ?_⟩
  · simp [asfOf]
  · simp
    omega

theorem Spec.WmvPayload.head_length {p : WmvPayload} :
    p.head.length = 1 + p.number.length + p.offset.length + p.repl.length + p.extra.length + p.size.length := by
  simp [WmvPayload.head]
  omega

/-- The start of a payload. -/
theorem asfPayloads_head {srs multi : Bool} {prop : Nat} {p : WmvPayload} (hp : p.Ok multi prop) {data pre post : Bytes}
    (hdata : data = pre ++ (p.head ++ post)) {datalen : Int}
    (hfit : ((pre.length + p.head.length + p.content.length : Nat) : Int) ≤ datalen)
    (hone : multi = false → datalen = ((pre.length + p.head.length + p.content.length : Nat) : Int)) (n : Nat) :
    asfPayloads srs multi prop data datalen (n + 1) pre.length =
      (if ofLe p.repl = 1 then do
          let k ← asfCount srs data (pre.length + p.head.length) (p.content.length : Nat) p.content.length 0 0
          let (ps, s4) ← asfCompressed srs data p.stream k p.head.length (pre.length + p.head.length)
          let (rest, e) ← asfPayloads srs multi prop data datalen n s4
          return (ps ++ rest, e)
        else do
          let q : AsfPayload := ⟨p.stream, p.head.length, p.head, (p.content.length : Nat),
            if srs then [] else slice data (pre.length + p.head.length) (pre.length + p.head.length + p.content.length)⟩
          if srs = false ∧ (q.data.length : Int) ≠ (p.content.length : Nat) then throw .assertError
          else do
            let (rest, e) ← asfPayloads srs multi prop data datalen n
              (if srs then pre.length + p.head.length else pre.length + p.head.length + p.content.length)
            return (q :: rest, e)) := by
  have hl := p.head_length
  have h1 : asfFieldLen (prop / 16 % 4) = p.number.length := by rw [hp.number, asfFieldLen_eq (Nat.mod_lt _ (by omega))]
  have h2 : asfFieldLen (prop / 4 % 4) = p.offset.length := by rw [hp.offset, asfFieldLen_eq (Nat.mod_lt _ (by omega))]
  have h3 : asfFieldLen (prop % 4) = p.repl.length := by rw [hp.repl, asfFieldLen_eq (Nat.mod_lt _ (by omega))]
  have e1 : unpackAt 1 data pre.length = .ok p.first.toNat := by
    rw [hdata]
    exact byte_mid pre p.first _ rfl
  have e2 : asfFieldValue (prop / 16 % 4) data (pre.length + 1) = .ok (ofLe p.number) := by
    rw [hdata, WmvPayload.head]
    have := asfFieldValue_mid (bits := prop / 16 % 4) (off := pre.length + 1) (pre ++ [p.first]) p.number
      (p.offset ++ (p.repl ++ (p.extra ++ p.size)) ++ post) (Nat.mod_lt _ (by omega)) (by simp) hp.number
    simpa using this
  have e3 : asfFieldValue (prop / 4 % 4) data (pre.length + 1 + p.number.length) = .ok (ofLe p.offset) := by
    rw [hdata, WmvPayload.head]
    have := asfFieldValue_mid (bits := prop / 4 % 4) (off := pre.length + 1 + p.number.length) (pre ++ (p.first :: p.number)) p.offset
      (p.repl ++ (p.extra ++ p.size) ++ post) (Nat.mod_lt _ (by omega)) (by simp; omega) hp.offset
    simpa using this
  have e4 : asfFieldValue (prop % 4) data (pre.length + 1 + p.number.length + p.offset.length) = .ok (ofLe p.repl) := by
    rw [hdata, WmvPayload.head]
    have := asfFieldValue_mid (bits := prop % 4) (off := pre.length + 1 + p.number.length + p.offset.length)
      (pre ++ (p.first :: (p.number ++ p.offset))) p.repl
      (p.extra ++ p.size ++ post) (Nat.mod_lt _ (by omega)) (by simp; omega) hp.repl
    simpa using this
  have e5 : (if ofLe p.repl > 1 then
            if ofLe p.repl < 8 ∨ ((ofLe p.repl + (pre.length + 1 + p.number.length + p.offset.length + p.repl.length) : Nat) : Int) > datalen
            then .error .valueError
            else do
              let _ ← unpackAt 4 (slice data (pre.length + 1 + p.number.length + p.offset.length + p.repl.length)
                (pre.length + 1 + p.number.length + p.offset.length + p.repl.length + ofLe p.repl)) 4
              return pre.length + 1 + p.number.length + p.offset.length + p.repl.length + ofLe p.repl
          else if ofLe p.repl = 1 then
            if ((pre.length + 1 + p.number.length + p.offset.length + p.repl.length : Nat) : Int) + 1 > datalen then .error .valueError
            else do
              let _ ← unpackAt 1 data (pre.length + 1 + p.number.length + p.offset.length + p.repl.length)
              return pre.length + 1 + p.number.length + p.offset.length + p.repl.length + 1
          else .ok (pre.length + 1 + p.number.length + p.offset.length + p.repl.length) : Res Nat) =
        .ok (pre.length + 1 + p.number.length + p.offset.length + p.repl.length + p.extra.length) := by
    have hx := hp.extra
    have hd2 : data = (pre ++ (p.first :: (p.number ++ (p.offset ++ p.repl)))) ++ (p.extra ++ (p.size ++ post)) := by
      rw [hdata, WmvPayload.head]
      simp
    have hl2 : (pre ++ (p.first :: (p.number ++ (p.offset ++ p.repl)))).length =
        pre.length + 1 + p.number.length + p.offset.length + p.repl.length := by simp; omega
    cases hc : p.content with
    | plain d =>
      rw [hc] at hx
      obtain ⟨hx1, hx2⟩ := hx
      rcases hx2 with hx2 | hx2
      · rw [hx1, hx2]
        simp
      · rw [hx1, if_pos (by omega), if_neg (by omega), hd2, mid_slice _ _ _ hl2 rfl, unpackAt_ok_iff.mpr ⟨by omega, rfl⟩]
        rfl
    | runs d ds =>
      rw [hc] at hx
      obtain ⟨hx1, hx2, _⟩ := hx
      rw [hx1, if_neg (by omega), if_pos rfl, if_neg (by omega), hd2, unpack_mid (k := 1) _ _ _ hl2 hx2, hx2]
      rfl
  have e6 : (if multi then
            if ((pre.length + 1 + p.number.length + p.offset.length + p.repl.length + p.extra.length : Nat) : Int) + 2 > datalen
            then .error .valueError
            else do
              let l ← unpackAt 2 data (pre.length + 1 + p.number.length + p.offset.length + p.repl.length + p.extra.length)
              return (pre.length + 1 + p.number.length + p.offset.length + p.repl.length + p.extra.length + 2, (l : Int))
          else .ok (pre.length + 1 + p.number.length + p.offset.length + p.repl.length + p.extra.length,
            datalen - (pre.length + 1 + p.number.length + p.offset.length + p.repl.length + p.extra.length : Nat)) : Res (Nat × Int)) =
        .ok (pre.length + p.head.length, ((p.content.length : Nat) : Int)) := by
    have hz := hp.size
    cases multi with
    | false =>
      have := hone rfl
      rw [if_neg (by simp)] at hz
      rw [hz, List.length_nil] at hl
      rw [if_neg (by simp), this]
      simp only [Except.ok.injEq, Prod.mk.injEq]
      omega
    | true =>
      rw [if_pos rfl] at hz
      have hz2 := congrArg List.length hz
      rw [le_length] at hz2
      rw [if_pos rfl, if_neg (by omega), hdata, WmvPayload.head]
      have := unpack_mid (k := 2) (off := pre.length + 1 + p.number.length + p.offset.length + p.repl.length + p.extra.length)
        (pre ++ (p.first :: (p.number ++ (p.offset ++ (p.repl ++ p.extra))))) p.size post (by simp; omega) hz2
      rw [show pre ++ (p.first :: (p.number ++ (p.offset ++ (p.repl ++ (p.extra ++ p.size)))) ++ post) =
        (pre ++ (p.first :: (p.number ++ (p.offset ++ (p.repl ++ p.extra))))) ++ (p.size ++ post) by simp, this, ok_bind, hz,
        ofLe_le_of_lt (by have := hp.short rfl; omega)]
      simp only [pure_eq_ok, Except.ok.injEq, Prod.mk.injEq, List.length_cons, List.length_append, le_length, and_true]
      omega
  have hsl : slice data pre.length (pre.length + p.head.length) = p.head := by
    rw [hdata]
    exact mid_slice _ _ _ rfl rfl
  rw [asfPayloads]
  simp only [h1, h2, h3, e1, e2, e3, e4, ok_bind]
  rw [if_neg (by omega), if_neg (by omega), e5]
  simp only [ok_bind]
  rw [e6]
  simp only [ok_bind, Int.toNat_natCast, Nat.add_sub_cancel_left, hsl, WmvPayload.stream]

/-- Length of a payload in a file. -/
theorem Spec.WmvPayload.pieces_length {p : WmvPayload} :
    (shown false p.pieces).length = p.head.length + p.content.length := by
  have hr : ∀ (s : Nat) (ds : List Bytes), (shown false (ds.map (runPiece s))).length = runsLength ds := by
    intro s ds
    induction ds with
    | nil => rfl
    | cons d ds ih => simp [runPiece, ih]; omega
  unfold WmvPayload.pieces
  cases hc : p.content with
  | plain d => simp [WmvContent.length]
  | runs d ds => simp [WmvContent.length, hr]; simp [runsLength]; omega

/-- One payload. -/
theorem asfPayloads_step {srs multi : Bool} {prop : Nat} {p : WmvPayload} (hp : p.Ok multi prop) {data pre more : Bytes}
    (hdata : data = pre ++ (shown srs p.pieces ++ more)) {datalen : Int}
    (hfit : ((pre.length + (shown false p.pieces).length : Nat) : Int) ≤ datalen)
    (hone : multi = false → datalen = ((pre.length + (shown false p.pieces).length : Nat) : Int)) (n : Nat) :
    asfPayloads srs multi prop data datalen (n + 1) pre.length = (do
      let (rest, e) ← asfPayloads srs multi prop data datalen n (pre.length + (shown srs p.pieces).length)
      return (p.pieces.map (asfOf srs) ++ rest, e)) := by
  rw [p.pieces_length] at hfit hone
  have hx := hp.extra
  cases hc : p.content with
  | plain d =>
    rw [hc] at hx
    have hpp : p.pieces = [⟨p.stream, p.head, d⟩] := by unfold WmvPayload.pieces; rw [hc]
    rw [hpp, shown_cons, shown_nil, List.append_nil] at hdata
    have hlen : p.content.length = d.length := by rw [hc]; rfl
    rw [asfPayloads_head (post := (if srs then [] else d) ++ more) hp (by rw [hdata]; simp) (by omega) (fun h => by have := hone h; omega),
      if_neg (by rcases hx.2 with h | h <;> rw [hx.1] <;> first | (rw [h]; simp; done) | omega), hlen, hpp]
    cases srs with
    | true => simp [asfOf]
    | false =>
      have hs : slice data (pre.length + p.head.length) (pre.length + p.head.length + d.length) = d := by
        rw [hdata]
        have := mid_slice (pre ++ p.head) d more (a := pre.length + p.head.length) (b := pre.length + p.head.length + d.length) (by simp) rfl
        simpa using this
      simp only [Bool.false_eq_true, if_false, hs]
      simp [asfOf, Nat.add_assoc]
  | runs d ds =>
    rw [hc] at hx
    have hpp : p.pieces = ⟨p.stream, p.head ++ [UInt8.ofNat d.length], d⟩ :: runPieces p.stream ds := by unfold WmvPayload.pieces; rw [hc]; rfl
    rw [hpp] at hdata
    have hlen : p.content.length = runsLength (d :: ds) := by rw [hc]; rfl
    have hdata2 : data = (pre ++ p.head) ++ (shown srs (runPieces p.stream (d :: ds)) ++ more) := by
      rw [hdata]
      simp [runPiece]
    rw [asfPayloads_head (post := shown srs (runPieces p.stream (d :: ds)) ++ more) hp (by rw [hdata2]; simp) (by omega)
      (fun h => by have := hone h; omega), if_pos hx.1,
      asfCount_ok (s := p.stream) (ds := d :: ds) (pre := pre ++ p.head) (more := more) hx.2.2 hdata2 (by cases srs <;> simp)
        (by rw [hlen, Nat.zero_add]) (by omega)]
    simp only [ok_bind, List.length_cons]
    rw [asfCompressed_first hx.2.2 hdata, hpp]
    rfl

/-- All payloads. -/
theorem asfPayloads_ok {srs multi : Bool} {prop : Nat} {data more : Bytes} {datalen : Int} :
    ∀ {ps : List WmvPayload} {pre : Bytes}, (∀ p ∈ ps, p.Ok multi prop) →
    data = pre ++ (shown srs (ps.flatMap WmvPayload.pieces) ++ more) →
    ∀ (done : Nat), (srs = false → done = pre.length) → pre.length ≤ done →
    ((done + (shown false (ps.flatMap WmvPayload.pieces)).length : Nat) : Int) ≤ datalen →
    (multi = false → ps.length ≤ 1 ∧ (ps ≠ [] → done = pre.length ∧
      datalen = ((done + (shown false (ps.flatMap WmvPayload.pieces)).length : Nat) : Int))) →
    asfPayloads srs multi prop data datalen ps.length pre.length =
      .ok ((ps.flatMap WmvPayload.pieces).map (asfOf srs), pre.length + (shown srs (ps.flatMap WmvPayload.pieces)).length) := by
  intro ps
  induction ps with
  | nil => intro pre _ _ _ _ _ _ _; rfl
  | cons p ps ih =>
    intro pre hps hdata done hdn hdl hfit hone
    have hlt : (shown srs p.pieces).length ≤ (shown false p.pieces).length := by
      cases srs
      · omega
      · generalize p.pieces = l
        induction l with
        | nil => simp
        | cons a l ih => simp at ih ⊢; omega
    simp only [List.flatMap_cons, shown_append, List.append_assoc, List.length_append] at hdata hfit hone ⊢
    rw [List.length_cons, asfPayloads_step (hps p List.mem_cons_self) hdata (by omega) (fun h => by
      have h1 := hone h
      have : ps = [] := by
        have := h1.1
        rw [List.length_cons] at this
        exact List.length_eq_zero_iff.1 (by omega)
      subst this
      simp at h1
      omega)]
    have := ih (pre := pre ++ shown srs p.pieces) (fun q hq => hps q (List.mem_cons_of_mem _ hq)) (by rw [hdata]; simp)
      (done + (shown false p.pieces).length) (fun h => by subst h; have := hdn rfl; simp; omega) (by simp; omega) (by omega) (fun h => by
        have h1 := hone h
        have : ps = [] := by
          have := h1.1
          rw [List.length_cons] at this
          exact List.length_eq_zero_iff.1 (by omega)
        subst this
        exact ⟨by simp, fun h => absurd rfl h⟩)
    rw [List.length_append] at this
    rw [this]
    simp [Nat.add_assoc]

theorem asfPacketFields_ok {srs : Bool} {flags n : Nat} {a b c t post data : Bytes} (ha : a.length = fieldSize (flags / 32 % 4))
    (hb : b.length = fieldSize (flags / 2 % 4)) (hc : c.length = fieldSize (flags / 8 % 4)) (ht : t.length = 6)
    (hdata : data = a ++ (b ++ (c ++ (t ++ post)))) (hn : a.length + b.length + c.length + 6 ≤ n) (hs : srs = false → data.length = n) :
    asfPacketFields srs flags data n = .ok (ofLe a, ofLe c, a.length + b.length + c.length + 6) := by
  have h1 : asfFieldLen (flags / 32 % 4) = a.length := by rw [ha, asfFieldLen_eq (Nat.mod_lt _ (by omega))]
  have h2 : asfFieldLen (flags / 2 % 4) = b.length := by rw [hb, asfFieldLen_eq (Nat.mod_lt _ (by omega))]
  have h3 : asfFieldLen (flags / 8 % 4) = c.length := by rw [hc, asfFieldLen_eq (Nat.mod_lt _ (by omega))]
  have e1 : asfFieldValue (flags / 32 % 4) data 0 = .ok (ofLe a) := by
    rw [hdata]
    exact asfFieldValue_mid [] a _ (Nat.mod_lt _ (by omega)) rfl ha
  have e2 : asfFieldValue (flags / 2 % 4) data a.length = .ok (ofLe b) := by
    rw [hdata]
    exact asfFieldValue_mid a b _ (Nat.mod_lt _ (by omega)) rfl hb
  have e3 : asfFieldValue (flags / 8 % 4) data (a.length + b.length) = .ok (ofLe c) := by
    rw [hdata]
    have := asfFieldValue_mid (bits := flags / 8 % 4) (off := a.length + b.length) (a ++ b) c (t ++ post) (Nat.mod_lt _ (by omega)) (by simp) hc
    simpa using this
  have hlen : data.length = a.length + b.length + c.length + 6 + post.length := by
    rw [hdata]
    simp
    omega
  unfold asfPacketFields
  simp only [h1, h2, h3, e1, e2, e3, ok_bind]
  rw [if_neg (by omega), if_neg (by rintro ⟨h, h'⟩; exact h' (hs h)), unpackAt_ok_iff.mpr ⟨by omega, rfl⟩]
  simp only [ok_bind]
  rw [unpackAt_ok_iff.mpr ⟨by omega, rfl⟩]
  rfl

theorem shown_length (ps : List WmvPiece) : (shown true ps).length ≤ (shown false ps).length := by
  induction ps with
  | nil => simp
  | cons a l ih => simp at ih ⊢; omega

theorem Spec.WmvPacket.bytes_eq (p : WmvPacket) : p.bytes = p.head ++ (shown false p.pieces ++ p.padding) := by
  unfold WmvPacket.bytes shown
  rfl

theorem Spec.WmvPacket.stripped_eq (p : WmvPacket) : p.stripped = p.head ++ shown true p.pieces := by
  unfold WmvPacket.stripped shown
  simp

theorem Spec.WmvPacket.head_length (p : WmvPacket) {psize : Nat} (hp : p.Ok psize) :
    p.head.length = 5 + (p.length.length + p.sequence.length + p.padSize.length + 6) + if p.multi then 1 else 0 := by
  unfold WmvPacket.head
  have := hp.ec
  have := hp.time
  cases p.multi <;> simp <;> omega

/-- Reading a packet of a file or of an SRS. -/
theorem asfPacket_gen {srs : Bool} {psize : Nat} {p : WmvPacket} (hp : p.Ok psize) {data rest : Bytes}
    (hdata : data = p.head ++ (shown srs p.pieces ++ rest)) (hs : srs = false → rest = p.padding) :
    asfPacket srs data psize = .ok ⟨p.head.length, p.padding.length, p.pieces.map (asfOf srs),
      if srs then p.head.length + (shown true p.pieces).length else psize⟩ := by
  have hl := p.head_length hp
  have htot := hp.total
  rw [p.bytes_eq] at htot
  simp only [List.length_append] at htot
  obtain ⟨e1, e2, hec⟩ : ∃ e1 e2, p.ec = [e1, e2] := by
    have := hp.ec
    match he : p.ec, this with
    | [a, b], _ => exact ⟨a, b, rfl⟩
  have hhead : p.head = 0x82 :: e1 :: e2 :: p.flags :: p.prop :: (p.length ++ (p.sequence ++ (p.padSize ++ (p.time ++
      if p.multi then [UInt8.ofNat (0x80 + p.payloads.length)] else [])))) := by
    unfold WmvPacket.head
    rw [hec]
    rfl
  have u0 : unpackAt 1 data 0 = .ok 0x82 := by rw [hdata, hhead]; exact byte_mid [] 0x82 _ rfl
  have u3 : unpackAt 1 data 3 = .ok p.flags.toNat := by rw [hdata, hhead]; exact byte_mid [0x82, e1, e2] _ _ rfl
  have u4 : unpackAt 1 data 4 = .ok p.prop.toNat := by rw [hdata, hhead]; exact byte_mid [0x82, e1, e2, p.flags] _ _ rfl
  have hd5 : data.drop 5 = p.length ++ (p.sequence ++ (p.padSize ++ (p.time ++
      ((if p.multi then [UInt8.ofNat (0x80 + p.payloads.length)] else []) ++ (shown srs p.pieces ++ rest))))) := by
    rw [hdata, hhead]
    simp
  have hlen : srs = false → data.length = psize := by
    intro h
    rw [hdata, hs h, h]
    simp
    omega
  have hf := asfPacketFields_ok (srs := srs) (n := psize - 5) hp.length hp.sequence hp.padSize hp.time hd5 (by omega)
    (fun h => by rw [List.length_drop, hlen h])
  have hL : (if p.flags.toNat / 32 % 4 = 0 then psize else ofLe p.length) ≤ psize ∧
      ofLe p.padSize + (psize - if p.flags.toNat / 32 % 4 = 0 then psize else ofLe p.length) = p.padding.length := by
    have hpad := hp.padding
    have hz : (p.flags.toNat / 32 % 4 = 0) ↔ p.length = [] := by
      rw [← List.length_eq_zero_iff, hp.length]
      have : p.flags.toNat / 32 % 4 < 4 := Nat.mod_lt _ (by omega)
      constructor
      · intro h; rw [h]; rfl
      · intro h
        unfold fieldSize at h
        split at h <;> omega
    by_cases h : p.length = []
    · rw [if_pos h] at hpad
      rw [if_pos (hz.2 h)]
      omega
    · rw [if_neg h] at hpad
      rw [if_neg (fun x => h (hz.1 x))]
      omega
  have hcount : (if p.flags.toNat % 2 = 1 then
          if 5 + (p.length.length + p.sequence.length + p.padSize.length + 6) + 1 > psize then .error .valueError
          else do
            let c ← unpackAt 1 data (5 + (p.length.length + p.sequence.length + p.padSize.length + 6))
            if c % 64 = 0 then throw .valueError
            else if c / 64 ≠ 2 then throw .valueError
            else return (c % 64, 5 + (p.length.length + p.sequence.length + p.padSize.length + 6) + 1)
        else .ok (1, 5 + (p.length.length + p.sequence.length + p.padSize.length + 6)) : Res (Nat × Nat)) =
      .ok (p.payloads.length, p.head.length) := by
    have hc := hp.count
    by_cases hm : p.flags.toNat % 2 = 1
    · have hm' : p.multi = true := by simp [WmvPacket.multi, hm]
      rw [hm', if_pos rfl] at hc hl
      have hu : unpackAt 1 data (5 + (p.length.length + p.sequence.length + p.padSize.length + 6)) = .ok (0x80 + p.payloads.length) := by
        have : data = (0x82 :: e1 :: e2 :: p.flags :: p.prop :: (p.length ++ (p.sequence ++ (p.padSize ++ p.time)))) ++
            (UInt8.ofNat (0x80 + p.payloads.length) :: (shown srs p.pieces ++ rest)) := by
          rw [hdata, hhead, hm', if_pos rfl]
          simp
        rw [this, byte_mid _ _ _ (by have := hp.time; simp; omega), toNat_ofNat_lt (by omega)]
      rw [if_pos hm, if_neg (by omega), hu, ok_bind, if_neg (by omega), if_neg (by omega)]
      simp only [pure_eq_ok, Except.ok.injEq, Prod.mk.injEq]
      omega
    · have hm' : p.multi = false := by simp [WmvPacket.multi, hm]
      rw [hm', if_neg (by simp)] at hc hl
      rw [if_neg hm, hc, hl]
      rfl
  have hmm : (p.flags.toNat % 2 == 1) = p.multi := rfl
  have hpay : asfPayloads srs p.multi p.prop.toNat (data.drop p.head.length)
      ((psize : Int) - p.head.length - p.padding.length) p.payloads.length 0 =
      .ok (p.pieces.map (asfOf srs), (shown srs p.pieces).length) := by
    have := asfPayloads_ok (srs := srs) (multi := p.multi) (prop := p.prop.toNat) (data := data.drop p.head.length) (more := rest)
      (datalen := (psize : Int) - p.head.length - p.padding.length) (ps := p.payloads) (pre := []) hp.payloads
      (by rw [hdata]; simp [WmvPacket.pieces]) 0 (fun _ => rfl) (Nat.le_refl _)
      (by unfold WmvPacket.pieces at htot; omega)
      (fun h => by
        have hc := hp.count
        rw [h, if_neg (by simp)] at hc
        exact ⟨by omega, fun _ => ⟨rfl, by unfold WmvPacket.pieces at htot; omega⟩⟩)
    rw [List.length_nil, Nat.zero_add] at this
    exact this
  unfold asfPacket
  rw [u0]
  simp only [ok_bind]
  rw [if_neg (by simp), if_neg (by omega), if_neg (by omega), u3, u4]
  simp only [ok_bind, Int.toNat_natCast]
  rw [hf]
  simp only [ok_bind]
  rw [if_neg (by omega), hL.2, hcount]
  simp only [ok_bind]
  rw [hmm, hpay]
  simp only [ok_bind]
  cases srs with
  | true => rfl
  | false => rw [if_neg (by simp), if_neg (by omega)]; rfl

theorem asfPacket_sample {psize : Nat} {p : WmvPacket} (hp : p.Ok psize) :
    asfPacket false p.bytes psize = .ok ⟨p.head.length, p.padding.length, p.pieces.map (asfOf false), psize⟩ :=
  asfPacket_gen hp p.bytes_eq fun _ => rfl

theorem asfPacket_srs {psize : Nat} {p : WmvPacket} (hp : p.Ok psize) {data rest : Bytes} (hdata : data = p.stripped ++ rest) :
    asfPacket true data psize = .ok ⟨p.head.length, p.padding.length, p.pieces.map (asfOf true), p.stripped.length⟩ := by
  rw [asfPacket_gen hp (rest := rest) (by rw [hdata, p.stripped_eq, List.append_assoc]) (by simp), p.stripped_eq, if_pos rfl, List.length_append]

theorem Spec.WmvPacket.Ok.short {psize : Nat} {p : WmvPacket} (hp : p.Ok psize) : p.stripped.length ≤ psize := by
  have := hp.total
  have := shown_length p.pieces
  rw [p.bytes_eq] at *
  rw [p.stripped_eq]
  simp only [List.length_append] at *
  omega

theorem Spec.WmvPacket.Ok.pos {psize : Nat} {p : WmvPacket} (hp : p.Ok psize) : 11 ≤ p.stripped.length := by
  have := p.head_length hp
  rw [p.stripped_eq, List.length_append]
  omega

end Rescene
