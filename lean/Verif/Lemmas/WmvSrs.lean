import Verif.Lemmas.WmvPacket
import Verif.Lemmas.AviSrs
/-
Creating, loading and rebuilding on WMV files.
-/
namespace Rescene
open Spec

/-! ### Reading objects -/

/-- An object that is not a data object, with a header object taken as a whole. -/
structure FlatOk (o : WmvObject) : Prop where
  guid : o.guid.length = 16
  data : o.guid ≠ dataGuid
  header : o.guid = headerGuid → 6 ≤ o.body.length
  size : 24 + o.body.length < 2 ^ 63

def Spec.WmvTop.flat : WmvTop → WmvObject
  | .other o => o
  | .header r inner => ⟨headerGuid, headerBody r inner⟩

theorem Spec.WmvTop.flat_bytes (t : WmvTop) : t.flat.bytes = t.bytes := by cases t <;> rfl

theorem Spec.WmvTop.Ok.flat {t : WmvTop} (h : t.Ok) : FlatOk t.flat := by
  cases t with
  | other o => exact ⟨h.1.1, h.1.2.2.1, fun e => absurd e h.1.2.1, h.1.2.2.2⟩
  | header r inner =>
    refine ⟨rfl, by simp [WmvTop.flat, headerGuid, dataGuid], fun _ => ?_, h.2.2⟩
    simp only [WmvTop.flat, headerBody, List.length_append, h.1]
    omega

/-- What the reader takes as the header of an object. -/
def rawLen (o : WmvObject) : Nat := if o.guid = headerGuid then 6 else 0
def rawOf (o : WmvObject) : Bytes := o.guid ++ (le 8 (24 + o.body.length) ++ o.body.take (rawLen o))
def restOf (o : WmvObject) : Bytes := o.body.drop (rawLen o)

theorem raw_rest (o : WmvObject) : rawOf o ++ restOf o = o.bytes := by
  simp [rawOf, restOf, WmvObject.bytes]

theorem FlatOk.raw_length {o : WmvObject} (h : FlatOk o) : (rawOf o).length = 24 + rawLen o := by
  have := h.header
  simp only [rawOf, List.length_append, le_length, h.guid, List.length_take]
  unfold rawLen
  split
  · rename_i e
    have := h.header e
    omega
  · omega

theorem FlatOk.bytes_length {o : WmvObject} (h : FlatOk o) : o.bytes.length = 24 + o.body.length := by
  simp only [WmvObject.bytes, List.length_append, le_length, h.guid]
  omega

theorem rawLen_le {o : WmvObject} (h : FlatOk o) : rawLen o ≤ o.body.length := by
  unfold rawLen
  split
  · exact h.header ‹_›
  · omega

def flatObj (pos : Nat) (o : WmvObject) : AsfObj := ⟨o.guid, 24 + o.body.length, rawOf o, pos, 24 + o.body.length⟩

theorem readAt_mid {pos n : Nat} (pre mid post : Bytes) (hp : pre.length = pos) (hn : mid.length = n) :
    readAt (pre ++ (mid ++ post)) pos n = mid := by
  subst hp hn
  simp [readAt]

theorem asfRead_end (mode : AsfMode) (file : Bytes) {pos : Nat} (h : file.length < pos + 24) : asfRead mode file pos = .ok none := by
  unfold asfRead
  rw [if_pos (by omega)]

theorem asfRead_flat {mode : AsfMode} {file pre post : Bytes} {o : WmvObject} (ho : FlatOk o) (hf : file = pre ++ (o.bytes ++ post)) :
    asfRead mode file pre.length = .ok (some (flatObj pre.length o)) := by
  have hlen : file.length = pre.length + (24 + o.body.length) + post.length := by
    rw [hf]; simp [ho.bytes_length]; omega
  have hhead : readAt file pre.length 24 = o.guid ++ le 8 (24 + o.body.length) := by
    rw [hf, WmvObject.bytes]
    have := readAt_mid pre (o.guid ++ le 8 (24 + o.body.length)) (o.body ++ post) (pos := pre.length) (n := 24) rfl (by simp [ho.guid])
    simpa using this
  unfold asfRead
  rw [if_neg (by omega), hhead]
  have hg : (o.guid ++ le 8 (24 + o.body.length)).take 16 = o.guid := by
    rw [List.take_append, ho.guid]
    simp [← ho.guid]
  have hu : unpackAt 8 (o.guid ++ le 8 (24 + o.body.length)) 16 = .ok (24 + o.body.length) := by
    have := unpackAt_append (k := 8) (n := 24 + o.body.length) o.guid [] ho.guid (by have := ho.size; omega)
    simpa using this
  simp only [hg, hu, ok_bind]
  have hd : ¬ o.guid = asfDataGuid := ho.data
  rw [if_neg (by rintro ⟨_, _, h⟩; omega), if_neg (fun h => hd h.2)]
  simp only [if_neg hd, pure_eq_ok, Except.ok.injEq, Option.some.injEq, flatObj, AsfObj.mk.injEq, true_and, and_true]
  simp only [rawOf, List.append_assoc, rawLen]
  by_cases hh : o.guid = headerGuid
  · rw [if_pos (show o.guid = asfHeaderGuid from hh), if_pos hh, hf]
    have hb := ho.header hh
    have := readAt_mid (pre ++ (o.guid ++ le 8 (24 + o.body.length))) (o.body.take 6) (o.body.drop 6 ++ post) (pos := pre.length + 24) (n := 6)
      (by simp [ho.guid]) (by simp; omega)
    rw [show pre ++ (o.bytes ++ post) = pre ++ (o.guid ++ le 8 (24 + o.body.length)) ++ (o.body.take 6 ++ (o.body.drop 6 ++ post)) by
      rw [← List.append_assoc (o.body.take 6), List.take_append_drop]
      simp [WmvObject.bytes], this]
  · rw [if_neg (show ¬ o.guid = asfHeaderGuid from hh), if_neg hh]
    simp

theorem asfContents_flat {file pre post : Bytes} {o : WmvObject} (ho : FlatOk o) (hf : file = pre ++ (o.bytes ++ post)) :
    asfContents file (flatObj pre.length o) = .ok (restOf o, (pre ++ o.bytes).length) := by
  have hr := rawLen_le ho
  have hsz := ho.size
  unfold asfContents
  simp only [flatObj, ho.raw_length]
  rw [if_neg (by omega), if_pos (by omega)]
  have hread : readAt file (pre.length + (24 + rawLen o)) (24 + o.body.length - (24 + rawLen o)) = restOf o := by
    rw [hf, ← raw_rest]
    have := readAt_mid (pre ++ rawOf o) (restOf o) post (pos := pre.length + (24 + rawLen o)) (n := 24 + o.body.length - (24 + rawLen o))
      (by simp [ho.raw_length]) (by simp [restOf]; omega)
    simpa using this
  rw [hread]
  simp only [Except.ok.injEq, Prod.mk.injEq, true_and, List.length_append, ho.bytes_length]
  simp [restOf]
  omega

theorem asfSkip_flat {pre post : Bytes} {o : WmvObject} (ho : FlatOk o) (hl : (pre ++ (o.bytes ++ post)).length < 2 ^ 63) :
    asfSkip (flatObj pre.length o) = .ok (pre ++ o.bytes).length := by
  simp only [List.length_append, ho.bytes_length] at hl ⊢
  have h : pre.length + (24 + o.body.length) < 2 ^ 63 := by omega
  exact if_pos h

/-! ### The data object -/

theorem dataHead_length {w : WmvFile} (h : w.Ok) : w.dataHead.length = 50 := by
  simp [WmvFile.dataHead, h.id, h.reserved, dataGuid]

theorem packets_length {w : WmvFile} (h : w.Ok) : (w.packets.flatMap WmvPacket.bytes).length = w.packets.length * w.psize := by
  have : ∀ ps : List WmvPacket, (∀ p ∈ ps, p.Ok w.psize) → (ps.flatMap WmvPacket.bytes).length = ps.length * w.psize := by
    intro ps
    induction ps with
    | nil => intro _; simp
    | cons p ps ih =>
      intro hps
      rw [List.flatMap_cons, List.length_append, ih (fun q hq => hps q (List.mem_cons_of_mem _ hq)), (hps p List.mem_cons_self).total,
        List.length_cons, Nat.succ_mul]
      omega
  exact this _ h.packets

theorem data_size {w : WmvFile} (h : w.Ok) : 50 + w.packets.length * w.psize < 2 ^ 63 := by
  have h1 := h.size
  have h2 := packets_length h
  have h3 := dataHead_length h
  unfold WmvFile.bytes at h1
  simp only [List.length_append] at h1
  omega

theorem packets_pos {w : WmvFile} (h : w.Ok) : 0 < w.packets.length := List.length_pos_iff.2 h.some

theorem asfPackets_data {w : WmvFile} (h : w.Ok) :
    asfPackets (50 + w.packets.length * w.psize) w.dataHead = .ok (w.packets.length, (w.psize : Int)) := by
  have hpos := packets_pos h
  have hlt : w.packets.length < 2 ^ 63 := by
    have h1 := data_size h
    obtain ⟨p, hp⟩ := List.exists_mem_of_ne_nil _ h.some
    have h2 := (h.packets p hp).pos
    have h3 := (h.packets p hp).short
    have : w.packets.length * 1 ≤ w.packets.length * w.psize := Nat.mul_le_mul_left _ (by omega)
    omega
  unfold asfPackets
  have hu : unpackAt 8 w.dataHead 40 = .ok w.packets.length := by
    have := unpackAt_append (k := 8) (n := w.packets.length) (off := 40) (dataGuid ++ (le 8 (50 + w.packets.length * w.psize) ++ w.id))
      w.reserved (by simp [dataGuid, h.id]) (by omega)
    rw [WmvFile.dataHead]
    simpa using this
  rw [hu]
  simp only [ok_bind]
  rw [if_neg (by omega), dataHead_length h]
  simp only [pure_eq_ok, Except.ok.injEq, Prod.mk.injEq, true_and]
  rw [Int.natCast_add, Int.natCast_mul, show (((50 : Nat) : Int) + (w.packets.length : Int) * w.psize - (50 : Nat)) = w.packets.length * w.psize by omega]
  exact Int.mul_ediv_cancel_left _ (by omega)

/-- The data object as it is read from a file. -/
def dataObj (pos : Nat) (w : WmvFile) : AsfObj :=
  ⟨dataGuid, 50 + w.packets.length * w.psize, w.dataHead, pos, 50 + w.packets.length * w.psize⟩

/-- The same from an SRS. -/
def dataSrsObj (pos : Nat) (w : WmvFile) : AsfObj :=
  ⟨dataGuid, 50 + (w.packets.flatMap WmvPacket.stripped).length, w.dataHead, pos, 50 + w.packets.length * w.psize⟩

theorem asfRead_head {mode : AsfMode} {file pre post : Bytes} {w : WmvFile} (h : w.Ok) (hf : file = pre ++ (w.dataHead ++ post)) :
    asfRead mode file pre.length =
      if mode = .srs then do
        let s ← asfSrsSize file w.psize w.packets.length (pre.length + 50)
        return some ⟨dataGuid, s + 50, w.dataHead, pre.length, 50 + w.packets.length * w.psize⟩
      else .ok (some (dataObj pre.length w)) := by
  have hdl := dataHead_length h
  have hlen : file.length = pre.length + 50 + post.length := by
    rw [hf]; simp [hdl]; omega
  have hhead : readAt file pre.length 24 = dataGuid ++ le 8 (50 + w.packets.length * w.psize) := by
    rw [hf, WmvFile.dataHead]
    have := readAt_mid pre (dataGuid ++ le 8 (50 + w.packets.length * w.psize)) (w.id ++ (le 8 w.packets.length ++ w.reserved) ++ post)
      (pos := pre.length) (n := 24) rfl (by simp [dataGuid])
    simpa using this
  have hraw : readAt file (pre.length + 24) 26 = w.id ++ (le 8 w.packets.length ++ w.reserved) := by
    rw [hf, WmvFile.dataHead]
    have := readAt_mid (pre ++ (dataGuid ++ le 8 (50 + w.packets.length * w.psize))) (w.id ++ (le 8 w.packets.length ++ w.reserved)) post
      (pos := pre.length + 24) (n := 26) (by simp [dataGuid]) (by simp [h.id, h.reserved])
    simpa using this
  have hg : (dataGuid ++ le 8 (50 + w.packets.length * w.psize)).take 16 = dataGuid := rfl
  have hu : unpackAt 8 (dataGuid ++ le 8 (50 + w.packets.length * w.psize)) 16 = .ok (50 + w.packets.length * w.psize) := by
    have := unpackAt_append (k := 8) (n := 50 + w.packets.length * w.psize) dataGuid [] (off := 16) rfl (by have := data_size h; omega)
    simpa using this
  have he : dataGuid = asfDataGuid := rfl
  have hne : ¬ dataGuid = asfHeaderGuid := by decide
  unfold asfRead
  rw [if_neg (by omega), hhead]
  simp only [hg, hu, ok_bind]
  rw [if_neg (fun x => x.2.1 he)]
  simp only [if_neg hne, if_pos he, hraw]
  have hdh : dataGuid ++ le 8 (50 + w.packets.length * w.psize) ++ (w.id ++ (le 8 w.packets.length ++ w.reserved)) = w.dataHead := by
    simp [WmvFile.dataHead]
  rw [hdh]
  by_cases hm : mode = .srs
  · rw [if_pos ⟨hm, he⟩, if_pos hm, asfPackets_data h]
    simp only [ok_bind, hdl]
  · rw [if_neg (fun x => hm x.1), if_neg hm]
    rfl

theorem asfRead_data {mode : AsfMode} (hm : mode ≠ .srs) {file pre post : Bytes} {w : WmvFile} (h : w.Ok)
    (hf : file = pre ++ (w.dataHead ++ post)) : asfRead mode file pre.length = .ok (some (dataObj pre.length w)) := by
  rw [asfRead_head h hf, if_neg hm]

theorem asfSrsSize_ok {psize : Nat} {file : Bytes} : ∀ {ps : List WmvPacket} {pre post : Bytes}, (∀ p ∈ ps, p.Ok psize) →
    file = pre ++ (ps.flatMap WmvPacket.stripped ++ post) →
    asfSrsSize file psize ps.length pre.length = .ok (ps.flatMap WmvPacket.stripped).length := by
  intro ps
  induction ps with
  | nil => intro pre post _ _; rfl
  | cons p ps ih =>
    intro pre post hps hf
    rw [List.length_cons, asfSrsSize, asfPacket_srs (rest := ps.flatMap WmvPacket.stripped ++ post) (hps p List.mem_cons_self)
      (by rw [hf]; simp)]
    simp only [ok_bind]
    rw [← List.length_append, ih (post := post) (fun q hq => hps q (List.mem_cons_of_mem _ hq)) (by rw [hf]; simp)]
    simp

theorem asfRead_srs_data {file pre post : Bytes} {w : WmvFile} (h : w.Ok)
    (hf : file = pre ++ (w.dataHead ++ (w.packets.flatMap WmvPacket.stripped ++ post))) :
    asfRead .srs file pre.length = .ok (some (dataSrsObj pre.length w)) := by
  rw [asfRead_head h hf, if_pos rfl]
  have := asfSrsSize_ok (file := file) (pre := pre ++ w.dataHead) (post := post) h.packets (by rw [hf]; simp)
  rw [List.length_append, dataHead_length h] at this
  rw [this]
  simp only [ok_bind, pure_eq_ok, dataSrsObj, Nat.add_comm]

/-! ### The packets -/

/-- What a loop over packets does. -/
def packetFold {σ : Type} (psize : Nat) (f : σ → Nat → Bytes → Res (σ × Bool)) : List WmvPacket → Nat → σ → Res (σ × Bool)
  | [], _, s => .ok (s, true)
  | p :: ps, off, s => do
    let (s, go) ← f s off p.bytes
    if go then packetFold psize f ps (off + psize) s else return (s, false)

theorem asfPacketLoop_ok {σ : Type} {psize : Nat} {file : Bytes} {f : σ → Nat → Bytes → Res (σ × Bool)} (hfl : file.length < 2 ^ 63) :
    ∀ {ps : List WmvPacket} {pre post : Bytes} {s : σ}, (∀ p ∈ ps, p.Ok psize) → file = pre ++ (ps.flatMap WmvPacket.bytes ++ post) →
    asfPacketLoop file psize f ps.length pre.length s = packetFold psize f ps pre.length s := by
  intro ps
  induction ps with
  | nil => intro pre post s _ _; rfl
  | cons p ps ih =>
    intro pre post s hps hf
    have hp := hps p List.mem_cons_self
    have hlen : file.length = pre.length + psize + (ps.flatMap WmvPacket.bytes ++ post).length := by
      rw [hf]; simp [hp.total]; omega
    rw [List.length_cons, asfPacketLoop, packetFold]
    have hpart : asfPart file pre.length (psize : Int) = .ok p.bytes := by
      unfold asfPart
      rw [if_neg (by omega), if_pos (by omega), Int.toNat_natCast, hf, List.flatMap_cons, List.append_assoc,
        readAt_mid pre p.bytes _ rfl hp.total]
    rw [hpart]
    simp only [ok_bind]
    cases f s pre.length p.bytes with
    | error e => rfl
    | ok r =>
      obtain ⟨s', go⟩ := r
      simp only [ok_bind]
      cases go with
      | false => rfl
      | true =>
        simp only [if_true, Int.toNat_natCast]
        have := ih (pre := pre ++ p.bytes) (post := post) (s := s') (fun q hq => hps q (List.mem_cons_of_mem _ hq)) (by rw [hf]; simp)
        rw [List.length_append, hp.total] at this
        exact this

/-! ### Profile -/

/-- The tracks the profile gives: streams that were declared or have a payload. -/
structure WmvTracks (decl : List Nat) (ps : List WmvPiece) (ts : Tracks) : Prop where
  distinct : ts.Pairwise (fun a b => a.1 ≠ b.1)
  keys : ∀ n, n ∈ trackKeys ts ↔ n ∈ decl ∨ ∃ p ∈ ps, p.stream = n
  data : ∀ n t, (n, t) ∈ ts → t = trackOf (streamData ps n) n

theorem streamData_append (a b : List WmvPiece) (n : Nat) : streamData (a ++ b) n = streamData a n ++ streamData b n := by
  simp [streamData]

theorem streamData_single (p : WmvPiece) (n : Nat) : streamData [p] n = if p.stream = n then p.data else [] := by
  simp [streamData]

theorem streamData_none {ps : List WmvPiece} {n : Nat} (h : ∀ p ∈ ps, p.stream ≠ n) : streamData ps n = [] := by
  unfold streamData
  rw [List.flatMap_eq_nil_iff]
  intro p hp
  rw [if_neg (h p hp)]

theorem WmvTracks.getNew {decl : List Nat} {ps : List WmvPiece} {ts : Tracks} (h : WmvTracks decl ps ts) (n : Nat) :
    ts.getNew n = trackOf (streamData ps n) n := by
  by_cases hk : n ∈ trackKeys ts
  · obtain ⟨⟨k, t⟩, hm, hn⟩ := List.mem_map.1 hk
    dsimp only at hn
    subst hn
    rw [getNew_mem h.distinct hm, h.data k t hm]
    rfl
  · rw [getNew_not_mem hk, streamData_none fun p hp ht => hk ((h.keys n).2 (Or.inr ⟨p, hp, ht⟩))]
    rfl

theorem WmvTracks.add {decl : List Nat} {ps : List WmvPiece} {ts : Tracks} (h : WmvTracks decl ps ts) (p : WmvPiece) :
    WmvTracks decl (ps ++ [p]) (ts.put p.stream (trackOf (streamData ps p.stream ++ p.data) p.stream)) := by
  refine ⟨pairwise_put h.distinct, fun k => ?_, fun k t hm => ?_⟩
  · rw [keys_put]
    have e : (k ∈ decl ∨ ∃ q ∈ ps ++ [p], q.stream = k) ↔ k ∈ trackKeys ts ∨ k = p.stream := by
      rw [h.keys]
      constructor
      · rintro (hd | ⟨q, hq, ht⟩)
        · exact Or.inl (Or.inl hd)
        · rcases List.mem_append.1 hq with hq | hq
          · exact Or.inl (Or.inr ⟨q, hq, ht⟩)
          · simp only [List.mem_singleton] at hq
            subst hq
            exact Or.inr ht.symm
      · rintro ((hd | ⟨q, hq, ht⟩) | rfl)
        · exact Or.inl hd
        · exact Or.inr ⟨q, by simp [hq], ht⟩
        · exact Or.inr ⟨p, by simp, rfl⟩
    rw [e]
    split
    · rename_i hk
      constructor
      · exact Or.inl
      · rintro (hk' | rfl)
        · exact hk'
        · exact hk
    · simp
  · rw [mem_put h.distinct] at hm
    rcases hm with hm | ⟨hm, hne⟩
    · simp only [Prod.mk.injEq] at hm
      obtain ⟨rfl, rfl⟩ := hm
      rw [streamData_append, streamData_single, if_pos rfl]
    · dsimp only at hne
      rw [h.data k t hm, streamData_append, streamData_single, if_neg (fun e => hne e.symm), List.append_nil]

theorem profile_payload {decl : List Nat} {ps : List WmvPiece} {ts : Tracks} (h : WmvTracks decl ps ts) (p : WmvPiece) :
    wmvProfilePayload ts (asfOf false p) = .ok (ts.put p.stream (trackOf (streamData ps p.stream ++ p.data) p.stream)) := by
  unfold wmvProfilePayload
  simp only [asfOf, Bool.false_eq_true, if_false, ne_eq, not_true_eq_false, h.getNew p.stream]
  rw [take_more']
  simp [trackOf]

theorem profile_payloads {decl : List Nat} : ∀ {qs ps : List WmvPiece} {ts : Tracks}, WmvTracks decl ps ts →
    ∃ ts', (qs.map (asfOf false)).foldlM wmvProfilePayload ts = .ok ts' ∧ WmvTracks decl (ps ++ qs) ts' ∧
      (ts'.map (·.2.dataLength)).sum = (ts.map (·.2.dataLength)).sum + (qs.map (·.data.length)).sum := by
  intro qs
  induction qs with
  | nil => intro ps ts h; exact ⟨ts, rfl, by simpa using h, by simp⟩
  | cons q qs ih =>
    intro ps ts h
    obtain ⟨ts', h1, h2, h3⟩ := ih (h.add q)
    refine ⟨ts', ?_, by simpa using h2, ?_⟩
    · rw [List.map_cons, List.foldlM_cons, profile_payload h, ok_bind, h1]
    · have hsum := sum_put ts q.stream (trackOf (streamData ps q.stream ++ q.data) q.stream)
      rw [h.getNew q.stream] at hsum
      rw [h3, List.map_cons, List.sum_cons]
      have e : ∀ b, (trackOf b q.stream).dataLength = b.length := fun _ => rfl
      rw [e, e, List.length_append] at hsum
      omega

/-- The padding of packets. -/
def paddingOf (ps : List WmvPacket) : Bytes := ps.flatMap (·.padding)

theorem shown_false_length (ps : List WmvPiece) :
    (shown false ps).length = (ps.map fun x => x.data.length).sum + (ps.map fun x => x.head.length).sum := by
  induction ps with
  | nil => rfl
  | cons p ps ih => simp [ih]; omega

theorem profile_packet {psize : Nat} {decl : List Nat} {ps : List WmvPiece} {s : WmvProfile} {pad : Bytes} {off : Nat}
    {p : WmvPacket} (hp : p.Ok psize) (h : WmvTracks decl ps s.tracks) :
    ∃ s' : WmvProfile, wmvProfilePacket psize (s, pad) off p.bytes = .ok ((s', pad ++ p.padding), true) ∧
      WmvTracks decl (ps ++ p.pieces) s'.tracks ∧ s'.crc = crc32 p.bytes s.crc ∧ s'.padding = s.padding ∧
      s'.other + (s'.tracks.map (·.2.dataLength)).sum = s.other + (s.tracks.map (·.2.dataLength)).sum + p.bytes.length := by
  obtain ⟨ts', h1, h2, h3⟩ := profile_payloads (qs := p.pieces) h
  have hb : p.bytes.length = p.head.length + ((p.pieces.map fun x => x.data.length).sum +
      (p.pieces.map fun x => x.head.length).sum) + p.padding.length := by
    rw [p.bytes_eq, List.length_append, List.length_append, shown_false_length]
    omega
  have hdrop : p.bytes.drop (p.bytes.length - p.padding.length) = p.padding := by
    have e : p.bytes = (p.head ++ shown false p.pieces) ++ p.padding := by rw [p.bytes_eq, List.append_assoc]
    have el : p.bytes.length - p.padding.length = (p.head ++ shown false p.pieces).length := by
      rw [e, List.length_append (bs := p.padding), Nat.add_sub_cancel]
    rw [el, e, List.drop_left]
  refine ⟨⟨crc32 p.bytes s.crc, s.other + (p.bytes.length - (p.pieces.map fun x => x.data.length).sum), ts', s.padding⟩, ?_, h2, rfl, rfl, ?_⟩
  · unfold wmvProfilePacket
    dsimp only
    rw [asfPacket_sample hp]
    simp only [ok_bind]
    rw [h1]
    simp only [ok_bind]
    have e1 : ((p.pieces.map (asfOf false)).map fun x => x.data.length).sum = (p.pieces.map fun x => x.data.length).sum := by
      rw [List.map_map]; rfl
    have e2 : ((p.pieces.map (asfOf false)).map fun x => x.headerSize).sum = (p.pieces.map fun x => x.head.length).sum := by
      rw [List.map_map]; rfl
    rw [e1, e2, if_neg (by omega), hdrop]
    rfl
  · dsimp only
    rw [h3]
    omega

theorem profile_packets {psize : Nat} {decl : List Nat} : ∀ {qs : List WmvPacket} {ps : List WmvPiece} {s : WmvProfile} {pad : Bytes}
    {off : Nat}, (∀ q ∈ qs, q.Ok psize) → WmvTracks decl ps s.tracks →
    ∃ s' : WmvProfile, packetFold psize (wmvProfilePacket psize) qs off (s, pad) = .ok ((s', pad ++ paddingOf qs), true) ∧
      WmvTracks decl (ps ++ qs.flatMap WmvPacket.pieces) s'.tracks ∧ s'.crc = crc32 (qs.flatMap WmvPacket.bytes) s.crc ∧
      s'.padding = s.padding ∧
      s'.other + (s'.tracks.map (·.2.dataLength)).sum = s.other + (s.tracks.map (·.2.dataLength)).sum + (qs.flatMap WmvPacket.bytes).length := by
  intro qs
  induction qs with
  | nil => intro ps s pad off _ h; exact ⟨s, by simp [packetFold, paddingOf], by simpa using h, by simp [crc32], rfl, by simp⟩
  | cons q qs ih =>
    intro ps s pad off hqs h
    obtain ⟨s1, h1, h2, h3, h4, h5⟩ := profile_packet (pad := pad) (off := off) (hqs q List.mem_cons_self) h
    obtain ⟨s2, g1, g2, g3, g4, g5⟩ := ih (pad := pad ++ q.padding) (off := off + psize) (fun x hx => hqs x (List.mem_cons_of_mem _ hx)) h2
    refine ⟨s2, ?_, by simpa using g2, ?_, by rw [g4, h4], ?_⟩
    · rw [packetFold, h1]
      simp only [ok_bind, if_true]
      rw [g1]
      simp [paddingOf]
    · rw [g3, h3, List.flatMap_cons, crc32_append]
    · rw [g5, h5, List.flatMap_cons, List.length_append]
      omega

/-- One object that is neither header nor data. -/
def profObj (s : WmvProfile) (o : WmvObject) : Res WmvProfile := do
  let s : WmvProfile := { s with other := s.other + 24 + o.body.length, crc := crc32 o.bytes s.crc }
  let s ← (if o.guid = streamGuid then do
      let flags ← unpackAt 2 o.body 48
      if s.tracks.any (·.1 == flags % 16) then throw .assertError
      else return { s with tracks := s.tracks.put (flags % 16) { number := flags % 16 } }
    else .ok s : Res WmvProfile)
  let _ ← (if o.guid = fileGuid then unpackAt 8 o.body 16 else .ok 0 : Res Nat)
  return s

theorem WmvObject_flat {o : WmvObject} (h : o.Ok) : FlatOk o := ⟨h.1, h.2.2.1, fun e => absurd e h.2.1, h.2.2.2⟩

theorem profile_object {o : WmvObject} (ho : o.Ok) {file pre post : Bytes} (hf : file = pre ++ (o.bytes ++ post)) (fuel : Nat)
    (s : WmvProfile) :
    wmvProfileLoop file (fuel + 1) pre.length s = (do
      let s ← profObj s o
      wmvProfileLoop file fuel (pre ++ o.bytes).length s) := by
  have hfl := WmvObject_flat ho
  have hr : rawLen o = 0 := if_neg ho.2.1
  have hrest : restOf o = o.body := by rw [restOf, hr]; rfl
  have hraw : rawOf o ++ o.body = o.bytes := by rw [← raw_rest, hrest]
  rw [wmvProfileLoop, asfRead_flat hfl hf]
  simp only [ok_bind]
  rw [if_neg (show ¬ (flatObj pre.length o).guid = asfHeaderGuid from ho.2.1), if_neg (show ¬ (flatObj pre.length o).guid = asfDataGuid from ho.2.2.1),
    asfContents_flat hfl hf]
  simp only [ok_bind]
  rw [show (flatObj pre.length o).raw = rawOf o from rfl, show (flatObj pre.length o).guid = o.guid from rfl, hrest, hfl.raw_length, hr,
    Nat.add_zero, ← crc32_append, hraw]
  unfold profObj
  dsimp only
  by_cases h1 : o.guid = streamGuid
  · rw [if_pos (show o.guid = asfStreamGuid from h1), if_pos h1]
    cases unpackAt 2 o.body 48 with
    | error e => rfl
    | ok fl =>
      simp only [ok_bind]
      by_cases h2 : s.tracks.any (·.1 == fl % 16) = true
      · rw [if_pos h2]; rfl
      · rw [if_neg h2]
        simp only [pure_eq_ok, ok_bind]
        by_cases h3 : o.guid = fileGuid
        · rw [if_pos (show o.guid = asfFileGuid from h3), if_pos h3]
          cases unpackAt 8 o.body 16 <;> rfl
        · rw [if_neg (show ¬ o.guid = asfFileGuid from h3), if_neg h3]; rfl
  · rw [if_neg (show ¬ o.guid = asfStreamGuid from h1), if_neg h1]
    simp only [ok_bind]
    by_cases h3 : o.guid = fileGuid
    · rw [if_pos (show o.guid = asfFileGuid from h3), if_pos h3]
      cases unpackAt 8 o.body 16 <;> rfl
    · rw [if_neg (show ¬ o.guid = asfFileGuid from h3), if_neg h3]; rfl

theorem profile_objects {file : Bytes} : ∀ {os : List WmvObject} {pre post : Bytes} (fuel : Nat) (s : WmvProfile), (∀ o ∈ os, o.Ok) →
    file = pre ++ (os.flatMap WmvObject.bytes ++ post) → file.length < pre.length + fuel →
    ∃ fuel', file.length < (pre ++ os.flatMap WmvObject.bytes).length + fuel' ∧ wmvProfileLoop file fuel pre.length s = (do
      let s ← os.foldlM profObj s
      wmvProfileLoop file fuel' (pre ++ os.flatMap WmvObject.bytes).length s) := by
  intro os
  induction os with
  | nil => intro pre post fuel s _ _ hfu; exact ⟨fuel, by simpa using hfu, by simp⟩
  | cons o os ih =>
    intro pre post fuel s ho hf hfu
    have hl := (WmvObject_flat (ho o List.mem_cons_self)).bytes_length
    cases fuel with
    | zero => rw [hf] at hfu; simp at hfu; omega
    | succ fuel =>
      rw [profile_object (post := os.flatMap WmvObject.bytes ++ post) (ho o List.mem_cons_self) (by rw [hf]; simp)]
      cases hs : profObj s o with
      | error e =>
        refine ⟨file.length + 1, by omega, ?_⟩
        rw [List.foldlM_cons, hs]
        rfl
      | ok s' =>
        obtain ⟨fuel', h1, h2⟩ := ih (pre := pre ++ o.bytes) (post := post) fuel s' (fun x hx => ho x (List.mem_cons_of_mem _ hx))
          (by rw [hf]; simp) (by simp; omega)
        refine ⟨fuel', by simpa using h1, ?_⟩
        rw [List.foldlM_cons, hs]
        simp only [ok_bind]
        rw [h2]
        simp

/-- One object at the top. -/
def profTop (s : WmvProfile) (t : WmvTop) : Res WmvProfile :=
  match t with
  | .other o => profObj s o
  | .header _ inner => inner.foldlM profObj { s with other := s.other + 30, crc := crc32 (rawOf t.flat) s.crc }

theorem profile_tops {file : Bytes} : ∀ {ts : List WmvTop} {pre post : Bytes} (fuel : Nat) (s : WmvProfile), (∀ t ∈ ts, t.Ok) →
    file = pre ++ (asfBytes ts ++ post) → file.length < pre.length + fuel →
    ∃ fuel', file.length < (pre ++ asfBytes ts).length + fuel' ∧ wmvProfileLoop file fuel pre.length s = (do
      let s ← ts.foldlM profTop s
      wmvProfileLoop file fuel' (pre ++ asfBytes ts).length s) := by
  intro ts
  induction ts with
  | nil => intro pre post fuel s _ _ hfu; exact ⟨fuel, by simpa [asfBytes] using hfu, by simp [asfBytes]⟩
  | cons t ts ih =>
    intro pre post fuel s ho hf hfu
    have hcons : asfBytes (t :: ts) = t.bytes ++ asfBytes ts := by simp [asfBytes]
    have ht := ho t List.mem_cons_self
    have step : ∃ fuel', file.length < (pre ++ t.bytes).length + fuel' ∧ wmvProfileLoop file fuel pre.length s = (do
        let s ← profTop s t
        wmvProfileLoop file fuel' (pre ++ t.bytes).length s) := by
      cases t with
      | other o =>
        have := profile_objects (os := [o]) (post := asfBytes ts ++ post) fuel s (by intro x hx; simp at hx; subst hx; exact ht.1)
          (by rw [hf, hcons]; simp [WmvTop.bytes]) hfu
        obtain ⟨fuel', h1, h2⟩ := this
        refine ⟨fuel', by simpa [WmvTop.bytes] using h1, ?_⟩
        rw [h2]
        simp [profTop, WmvTop.bytes]
      | header r inner =>
        have hfl := ht.flat
        have hr : rawLen (WmvTop.header r inner).flat = 6 := if_pos rfl
        have hrest : restOf (WmvTop.header r inner).flat = inner.flatMap WmvObject.bytes := by
          rw [restOf, hr]
          show (r ++ inner.flatMap WmvObject.bytes).drop 6 = _
          rw [← ht.1, List.drop_left]
        have hrl := hfl.raw_length
        rw [hr] at hrl
        have hbt : (WmvTop.header r inner).bytes = rawOf (WmvTop.header r inner).flat ++ inner.flatMap WmvObject.bytes := by
          rw [← WmvTop.flat_bytes, ← raw_rest, hrest]
        cases fuel with
        | zero =>
          rw [hf, hcons, ← WmvTop.flat_bytes] at hfu
          have := hfl.bytes_length
          simp only [List.length_append] at hfu
          omega
        | succ fuel =>
          rw [wmvProfileLoop, asfRead_flat (post := asfBytes ts ++ post) hfl (by rw [hf, hcons, WmvTop.flat_bytes]; simp)]
          simp only [ok_bind]
          rw [if_pos (show (flatObj pre.length (WmvTop.header r inner).flat).guid = asfHeaderGuid from rfl),
            show (flatObj pre.length (WmvTop.header r inner).flat).raw = rawOf (WmvTop.header r inner).flat from rfl]
          have := profile_objects (file := file) (os := inner) (pre := pre ++ rawOf (WmvTop.header r inner).flat) (post := asfBytes ts ++ post) fuel
            { s with other := s.other + 30, crc := crc32 (rawOf (WmvTop.header r inner).flat) s.crc } ht.2.1
            (by rw [hf, hcons, hbt]; simp) (by rw [List.length_append]; omega)
          obtain ⟨fuel', h1, h2⟩ := this
          refine ⟨fuel', by rw [hbt]; simpa using h1, ?_⟩
          rw [List.length_append, hrl] at h2
          rw [hrl, h2]
          simp [profTop, hbt]
    obtain ⟨f1, h1, h2⟩ := step
    rw [h2, List.foldlM_cons]
    cases hs : profTop s t with
    | error e => exact ⟨file.length + 1, by omega, rfl⟩
    | ok s' =>
      obtain ⟨f2, g1, g2⟩ := ih (pre := pre ++ t.bytes) (post := post) f1 s' (fun x hx => ho x (List.mem_cons_of_mem _ hx))
        (by rw [hf, hcons]; simp) h1
      refine ⟨f2, by rw [hcons]; simpa using g1, ?_⟩
      simp only [ok_bind]
      rw [g2, hcons]
      simp

/-- What a part of the file with these bytes changes, when it has these stream objects. -/
structure Profiled (bytes : Bytes) (decl : List Nat) (ps : List WmvPiece) (s s' : WmvProfile) : Prop where
  crc : s'.crc = crc32 bytes s.crc
  tracks : WmvTracks decl ps s'.tracks
  padding : s'.padding = s.padding
  total : s'.other + (s'.tracks.map (·.2.dataLength)).sum = s.other + (s.tracks.map (·.2.dataLength)).sum + bytes.length

theorem any_key {ts : Tracks} {n : Nat} : ts.any (·.1 == n) = true ↔ n ∈ trackKeys ts := by
  simp [trackKeys]

theorem WmvTracks.declare {decl : List Nat} {ps : List WmvPiece} {ts : Tracks} (h : WmvTracks decl ps ts) {n : Nat}
    (hn : n ∉ trackKeys ts) : WmvTracks (decl ++ [n]) ps (ts.put n { number := n }) := by
  have hd : streamData ps n = [] := streamData_none fun p hp e => hn ((h.keys n).2 (Or.inr ⟨p, hp, e⟩))
  refine ⟨pairwise_put h.distinct, fun k => ?_, fun k t hm => ?_⟩
  · rw [keys_put, if_neg hn]
    simp only [List.mem_append, h.keys, List.mem_singleton]
    constructor
    · rintro ((a | a) | a)
      · exact Or.inl (Or.inl a)
      · exact Or.inr a
      · exact Or.inl (Or.inr a)
    · rintro ((a | a) | a)
      · exact Or.inl (Or.inl a)
      · exact Or.inr a
      · exact Or.inl (Or.inr a)
  · rw [mem_put h.distinct] at hm
    rcases hm with hm | ⟨hm, hne⟩
    · simp only [Prod.mk.injEq] at hm
      obtain ⟨rfl, rfl⟩ := hm
      rw [hd]
      rfl
    · exact h.data k t hm

theorem declared_cons (o : WmvObject) (os : List WmvObject) : declared (o :: os) = declared [o] ++ declared os := by
  unfold declared
  rw [show o :: os = [o] ++ os from rfl, List.filter_append, List.map_append]

theorem declared_append (a b : List WmvObject) : declared (a ++ b) = declared a ++ declared b := by
  simp [declared]

theorem profObj_inv {decl : List Nat} {ps : List WmvPiece} {s s' : WmvProfile} {o : WmvObject} (ho : o.Ok)
    (h : WmvTracks decl ps s.tracks) (he : profObj s o = .ok s') : Profiled o.bytes (decl ++ declared [o]) ps s s' := by
  unfold profObj at he
  simp only [bind_eq_ok, pure_eq_ok, Except.ok.injEq] at he
  obtain ⟨s1, h1, _, _, rfl⟩ := he
  have hl := (WmvObject_flat ho).bytes_length
  by_cases hg : o.guid = streamGuid
  · rw [if_pos hg] at h1
    simp only [bind_eq_ok] at h1
    obtain ⟨fl, hfl, h1⟩ := h1
    split at h1
    · simp at h1
    · rename_i hany
      rw [any_key] at hany
      simp only [pure_eq_ok, Except.ok.injEq] at h1
      subst h1
      have hdec : declared [o] = [fl % 16] := by
        simp [declared, hg, (unpackAt_ok_iff.1 hfl).2]
      rw [hdec]
      refine ⟨rfl, h.declare hany, rfl, ?_⟩
      have hsum := sum_put s.tracks (fl % 16) { number := fl % 16 }
      rw [getNew_not_mem hany] at hsum
      dsimp only at hsum ⊢
      omega
  · rw [if_neg hg] at h1
    injection h1 with h1
    subst h1
    have hdec : declared [o] = [] := by simp [declared, hg]
    rw [hdec, List.append_nil]
    exact ⟨rfl, h, rfl, by dsimp only; omega⟩

theorem profObj_accepts {decl : List Nat} {ps : List WmvPiece} {s : WmvProfile} {o : WmvObject} (hl : LongOk o)
    (h : WmvTracks decl ps s.tracks) (hn : ∀ n ∈ declared [o], n ∉ decl ∧ ∀ p ∈ ps, p.stream ≠ n) : ∃ s', profObj s o = .ok s' := by
  have hfile : ∃ x, (if o.guid = fileGuid then unpackAt 8 o.body 16 else .ok 0 : Res Nat) = .ok x := by
    split
    · rename_i hg
      have := hl.2 hg
      exact ⟨_, unpackAt_ok_iff.mpr ⟨by omega, rfl⟩⟩
    · exact ⟨0, rfl⟩
  obtain ⟨x, hx⟩ := hfile
  unfold profObj
  dsimp only
  by_cases hg : o.guid = streamGuid
  · have := hl.1 hg
    have hu : unpackAt 2 o.body 48 = .ok (ofLe (slice o.body 48 50)) := unpackAt_ok_iff.mpr ⟨by omega, rfl⟩
    have hnk : ofLe (slice o.body 48 50) % 16 ∉ trackKeys s.tracks := by
      rw [h.keys]
      have := hn (ofLe (slice o.body 48 50) % 16) (by simp [declared, hg])
      rintro (a | ⟨p, hp, e⟩)
      · exact this.1 a
      · exact this.2 p hp e
    rw [if_pos hg, hu]
    simp only [ok_bind]
    rw [if_neg (by rw [any_key]; exact hnk)]
    simp only [pure_eq_ok, ok_bind]
    rw [hx]
    exact ⟨_, rfl⟩
  · rw [if_neg hg]
    simp only [ok_bind]
    rw [hx]
    exact ⟨_, rfl⟩

theorem Profiled.trans {b1 b2 : Bytes} {d1 d2 : List Nat} {ps : List WmvPiece} {s1 s2 s3 : WmvProfile} (h1 : Profiled b1 d1 ps s1 s2)
    (h2 : Profiled b2 d2 ps s2 s3) : Profiled (b1 ++ b2) d2 ps s1 s3 :=
  ⟨by rw [h2.crc, h1.crc, crc32_append], h2.tracks, by rw [h2.padding, h1.padding], by
    have := h1.total
    have := h2.total
    rw [List.length_append]
    omega⟩

theorem profObjs_inv {ps : List WmvPiece} : ∀ {os : List WmvObject} {decl : List Nat} {s s' : WmvProfile}, (∀ o ∈ os, o.Ok) →
    WmvTracks decl ps s.tracks → os.foldlM profObj s = .ok s' →
    Profiled (os.flatMap WmvObject.bytes) (decl ++ declared os) ps s s' := by
  intro os
  induction os with
  | nil =>
    intro decl s s' _ h he
    simp only [List.foldlM_nil, pure_eq_ok, Except.ok.injEq] at he
    subst he
    exact ⟨by simp [crc32], by simpa [declared] using h, rfl, by simp⟩
  | cons o os ih =>
    intro decl s s' ho h he
    rw [List.foldlM_cons] at he
    simp only [bind_eq_ok] at he
    obtain ⟨s1, h1, he⟩ := he
    have a := profObj_inv (ho o List.mem_cons_self) h h1
    have b := ih (fun x hx => ho x (List.mem_cons_of_mem _ hx)) a.tracks he
    rw [declared_cons, ← List.append_assoc, List.flatMap_cons]
    exact a.trans b

theorem profObjs_accepts {ps : List WmvPiece} : ∀ {os : List WmvObject} {decl : List Nat} {s : WmvProfile}, (∀ o ∈ os, o.Ok) →
    (∀ o ∈ os, LongOk o) → WmvTracks decl ps s.tracks → (decl ++ declared os).Nodup → (∀ n ∈ declared os, ∀ p ∈ ps, p.stream ≠ n) →
    ∃ s', os.foldlM profObj s = .ok s' := by
  intro os
  induction os with
  | nil => intro decl s _ _ _ _ _; exact ⟨s, rfl⟩
  | cons o os ih =>
    intro decl s ho hl h hnd hps
    rw [declared_cons] at hnd hps
    obtain ⟨s1, h1⟩ := profObj_accepts (hl o List.mem_cons_self) h fun n hn =>
      ⟨fun hd => by
        rw [List.nodup_append] at hnd
        exact hnd.2.2 n hd n (List.mem_append_left _ hn) rfl, hps n (List.mem_append_left _ hn)⟩
    have a := profObj_inv (ho o List.mem_cons_self) h h1
    obtain ⟨s2, h2⟩ := ih (fun x hx => ho x (List.mem_cons_of_mem _ hx)) (fun x hx => hl x (List.mem_cons_of_mem _ hx)) a.tracks
      (by rw [List.append_assoc]; exact hnd) (fun n hn => hps n (List.mem_append_right _ hn))
    exact ⟨s2, by rw [List.foldlM_cons, h1, ok_bind, h2]⟩

theorem header_raw {r : Bytes} {inner : List WmvObject} (ht : (WmvTop.header r inner).Ok) :
    (rawOf (WmvTop.header r inner).flat).length = 30 ∧
      (WmvTop.header r inner).bytes = rawOf (WmvTop.header r inner).flat ++ inner.flatMap WmvObject.bytes := by
  have hfl := ht.flat
  have hr : rawLen (WmvTop.header r inner).flat = 6 := if_pos rfl
  have hrest : restOf (WmvTop.header r inner).flat = inner.flatMap WmvObject.bytes := by
    rw [restOf, hr]
    show (r ++ inner.flatMap WmvObject.bytes).drop 6 = _
    rw [← ht.1, List.drop_left]
  have hrl := hfl.raw_length
  rw [hr] at hrl
  exact ⟨hrl, by rw [← WmvTop.flat_bytes, ← raw_rest, hrest]⟩

theorem profTops_inv {ps : List WmvPiece} : ∀ {ts : List WmvTop} {decl : List Nat} {s s' : WmvProfile}, (∀ t ∈ ts, t.Ok) →
    WmvTracks decl ps s.tracks → ts.foldlM profTop s = .ok s' →
    Profiled (asfBytes ts) (decl ++ declared (ts.flatMap WmvTop.objects)) ps s s' := by
  intro ts
  induction ts with
  | nil =>
    intro decl s s' _ h he
    simp only [List.foldlM_nil, pure_eq_ok, Except.ok.injEq] at he
    subst he
    exact ⟨by simp [crc32, asfBytes], by simpa [declared] using h, rfl, by simp [asfBytes]⟩
  | cons t ts ih =>
    intro decl s s' ho h he
    rw [List.foldlM_cons] at he
    simp only [bind_eq_ok] at he
    obtain ⟨s1, h1, he⟩ := he
    have ht := ho t List.mem_cons_self
    have a : Profiled t.bytes (decl ++ declared t.objects) ps s s1 := by
      cases t with
      | other o => exact profObj_inv ht.1 h h1
      | header r inner =>
        obtain ⟨hr, hb⟩ := header_raw ht
        have x := profObjs_inv (s := { s with other := s.other + 30, crc := crc32 (rawOf (WmvTop.header r inner).flat) s.crc }) ht.2.1 h h1
        rw [hb]
        have y : Profiled (rawOf (WmvTop.header r inner).flat) decl ps s
            { s with other := s.other + 30, crc := crc32 (rawOf (WmvTop.header r inner).flat) s.crc } := ⟨rfl, h, rfl, by dsimp only; omega⟩
        exact y.trans x
    have b := ih (fun x hx => ho x (List.mem_cons_of_mem _ hx)) a.tracks he
    rw [List.flatMap_cons, declared_append, ← List.append_assoc, show asfBytes (t :: ts) = t.bytes ++ asfBytes ts by simp [asfBytes]]
    exact a.trans b

theorem profTops_accepts {ps : List WmvPiece} : ∀ {ts : List WmvTop} {decl : List Nat} {s : WmvProfile}, (∀ t ∈ ts, t.Ok) →
    (∀ o ∈ ts.flatMap WmvTop.objects, LongOk o) → WmvTracks decl ps s.tracks → (decl ++ declared (ts.flatMap WmvTop.objects)).Nodup →
    (∀ n ∈ declared (ts.flatMap WmvTop.objects), ∀ p ∈ ps, p.stream ≠ n) → ∃ s', ts.foldlM profTop s = .ok s' := by
  intro ts
  induction ts with
  | nil => intro decl s _ _ _ _ _; exact ⟨s, rfl⟩
  | cons t ts ih =>
    intro decl s ho hl h hnd hps
    have ht := ho t List.mem_cons_self
    rw [List.flatMap_cons, declared_append] at hnd hps
    rw [List.flatMap_cons] at hl
    have hnd1 : (decl ++ declared t.objects).Nodup := by
      rw [← List.append_assoc, List.nodup_append] at hnd
      exact hnd.1
    have hok : ∃ s1, profTop s t = .ok s1 := by
      cases t with
      | other o =>
        obtain ⟨s1, h1⟩ := profObjs_accepts (os := [o]) (by intro x hx; simp at hx; subst hx; exact ht.1)
          (fun x hx => hl x (List.mem_append_left _ hx)) h hnd1 (fun n hn => hps n (List.mem_append_left _ hn))
        rw [List.foldlM_cons] at h1
        simp only [bind_eq_ok] at h1
        obtain ⟨s2, h2, _⟩ := h1
        exact ⟨s2, h2⟩
      | header r inner =>
        exact profObjs_accepts (os := inner) (s := { s with other := s.other + 30, crc := crc32 (rawOf (WmvTop.header r inner).flat) s.crc })
          ht.2.1 (fun x hx => hl x (List.mem_append_left _ hx)) h hnd1 (fun n hn => hps n (List.mem_append_left _ hn))
    obtain ⟨s1, h1⟩ := hok
    have a := profTops_inv (ts := [t]) (s' := s1) (by intro x hx; simp at hx; subst hx; exact ht) h
      (by rw [List.foldlM_cons, h1]; rfl)
    rw [List.flatMap_cons, List.flatMap_nil, List.append_nil] at a
    obtain ⟨s2, h2⟩ := ih (fun x hx => ho x (List.mem_cons_of_mem _ hx)) (fun x hx => hl x (List.mem_append_right _ hx)) a.tracks
      (by rw [List.append_assoc]; exact hnd) (fun n hn => hps n (List.mem_append_right _ hn))
    exact ⟨s2, by rw [List.foldlM_cons, h1, ok_bind, h2]⟩

theorem wmvTracks_nil : WmvTracks [] [] [] := ⟨List.Pairwise.nil, by simp [trackKeys], by simp⟩

theorem asfBytes_append (a b : List WmvTop) : asfBytes (a ++ b) = asfBytes a ++ asfBytes b := by simp [asfBytes]

/-- The profile, as a sequence of steps. -/
theorem wmvProfileLoop_file {w : WmvFile} (h : w.Ok) (fuel : Nat) (hfu : w.bytes.length < fuel) (s : WmvProfile) :
    ∃ f : WmvProfile → Res WmvProfile, wmvProfileLoop w.bytes fuel 0 s = (do
        let s ← w.before.foldlM profTop s
        let s ← f s
        w.after.foldlM profTop s) ∧
      ∀ s decl, WmvTracks decl [] s.tracks → ∃ s' : WmvProfile, f s = .ok s' ∧ s'.padding = some (paddingOf w.packets) ∧
        WmvTracks decl w.pieces s'.tracks ∧ s'.crc = crc32 (w.dataHead ++ w.packets.flatMap WmvPacket.bytes) s.crc ∧
        s'.other + (s'.tracks.map (·.2.dataLength)).sum =
          s.other + (s.tracks.map (·.2.dataLength)).sum + (w.dataHead ++ w.packets.flatMap WmvPacket.bytes).length := by
  have hdl := dataHead_length h
  have hpl := packets_length h
  obtain ⟨f1, h1, h2⟩ := profile_tops (file := w.bytes) (pre := []) (post := w.dataHead ++ (w.packets.flatMap WmvPacket.bytes ++ asfBytes w.after))
    fuel s h.before rfl (by simpa using hfu)
  rw [List.nil_append] at h1 h2
  have hlen : w.bytes.length = (asfBytes w.before).length + 50 + w.packets.length * w.psize + (asfBytes w.after).length := by
    simp only [WmvFile.bytes, List.length_append, hdl, hpl]
    omega
  obtain ⟨g, rfl⟩ : ∃ g, f1 = g + 1 := by
    cases f1 with
    | zero => omega
    | succ g => exact ⟨g, rfl⟩
  have hend : ∃ g', w.bytes.length < (asfBytes w.before ++ (w.dataHead ++ w.packets.flatMap WmvPacket.bytes)).length + g ∧ g = g' + 1 := by
    have : 11 ≤ w.psize := by
      obtain ⟨p, hp⟩ := List.exists_mem_of_ne_nil _ h.some
      have h2 := (h.packets p hp).pos
      have h3 := (h.packets p hp).short
      omega
    cases g with
    | zero => omega
    | succ g => refine ⟨g, ?_, rfl⟩; simp only [List.length_append, hdl, hpl]; omega
  obtain ⟨_, hg, rfl⟩ := hend
  refine ⟨fun s => do
    let s : WmvProfile := { s with other := s.other + 50, crc := crc32 w.dataHead s.crc }
    let ((s, pad), _) ← packetFold w.psize (wmvProfilePacket w.psize) w.packets ((asfBytes w.before).length + 50) (s, [])
    return { s with padding := some pad }, ?_, ?_⟩
  · rw [show (0 : Nat) = ([] : Bytes).length from rfl, h2]
    congr 1
    funext s
    rw [wmvProfileLoop, asfRead_data (mode := .sample) (file := w.bytes) (by decide) h rfl]
    simp only [ok_bind]
    rw [if_neg (show ¬ (dataObj (asfBytes w.before).length w).guid = asfHeaderGuid by simp [dataObj]; decide),
      if_pos (show (dataObj (asfBytes w.before).length w).guid = asfDataGuid from rfl)]
    rw [show (dataObj (asfBytes w.before).length w).raw = w.dataHead from rfl,
      show (dataObj (asfBytes w.before).length w).size = 50 + w.packets.length * w.psize from rfl, asfPackets_data h, hdl]
    simp only [ok_bind]
    have hlp := asfPacketLoop_ok (file := w.bytes) (psize := w.psize) (f := wmvProfilePacket w.psize) h.size (ps := w.packets)
      (pre := asfBytes w.before ++ w.dataHead) (post := asfBytes w.after)
      (s := ({ s with other := s.other + 50, crc := crc32 w.dataHead s.crc }, [])) h.packets (by simp [WmvFile.bytes])
    rw [List.length_append, hdl] at hlp
    rw [hlp]
    cases packetFold w.psize (wmvProfilePacket w.psize) w.packets ((asfBytes w.before).length + 50)
        ({ s with other := s.other + 50, crc := crc32 w.dataHead s.crc }, []) with
    | error e => rfl
    | ok r =>
      obtain ⟨⟨s1, pad⟩, go⟩ := r
      simp only [ok_bind, pure_eq_ok]
      rw [if_neg (by simp only [Int.natCast_add, Int.natCast_mul]; omega)]
      obtain ⟨f3, h3, h4⟩ := profile_tops (file := w.bytes) (pre := asfBytes w.before ++ (w.dataHead ++ w.packets.flatMap WmvPacket.bytes))
        (post := []) _ { s1 with padding := some pad } h.after (by simp [WmvFile.bytes]) hg
      rw [show (asfBytes w.before).length + (50 + w.packets.length * w.psize) =
        (asfBytes w.before ++ (w.dataHead ++ w.packets.flatMap WmvPacket.bytes)).length by simp only [List.length_append, hdl, hpl], h4]
      have e : asfBytes w.before ++ (w.dataHead ++ w.packets.flatMap WmvPacket.bytes) ++ asfBytes w.after = w.bytes := by simp [WmvFile.bytes]
      rw [e] at h3 ⊢
      obtain ⟨k, rfl⟩ : ∃ k, f3 = k + 1 := by
        cases f3 with
        | zero => omega
        | succ k => exact ⟨k, rfl⟩
      cases w.after.foldlM profTop { s1 with padding := some pad } with
      | error e => rfl
      | ok s2 =>
        simp only [ok_bind]
        rw [wmvProfileLoop, asfRead_end _ _ (by omega)]
        rfl
  · intro s decl hs
    obtain ⟨s', g1, g2, g3, g4, g5⟩ := profile_packets (psize := w.psize) (pad := []) (off := (asfBytes w.before).length + 50)
      (s := { s with other := s.other + 50, crc := crc32 w.dataHead s.crc }) h.packets hs
    refine ⟨{ s' with padding := some (paddingOf w.packets) }, ?_, rfl, ?_, ?_, ?_⟩
    · simp only [g1, ok_bind, List.nil_append, pure_eq_ok]
    · simpa [WmvFile.pieces] using g2
    · rw [crc32_append]; exact g3
    · rw [List.length_append, hdl]
      dsimp only at g5 ⊢
      omega

end Rescene
