import Verif.Props.Wmv
/-
C67: examples, and samples that are not rebuilt.
-/
namespace Rescene.Props
open Rescene Spec

instance instDecidableWmvPayloadOk (multi : Bool) (prop : Nat) (p : WmvPayload) : Decidable (p.Ok multi prop) := by
  have : Decidable (match p.content with
    | .plain _ => ofLe p.repl = p.extra.length ∧ (p.extra = [] ∨ 8 ≤ p.extra.length)
    | .runs d ds => ofLe p.repl = 1 ∧ p.extra.length = 1 ∧ ∀ x ∈ d :: ds, x.length < 256) := by split <;> infer_instance
  exact decidable_of_iff (p.number.length = fieldSize (prop / 16 % 4) ∧ p.offset.length = fieldSize (prop / 4 % 4) ∧
    p.repl.length = fieldSize (prop % 4) ∧ (match p.content with
    | .plain _ => ofLe p.repl = p.extra.length ∧ (p.extra = [] ∨ 8 ≤ p.extra.length)
    | .runs d ds => ofLe p.repl = 1 ∧ p.extra.length = 1 ∧ ∀ x ∈ d :: ds, x.length < 256) ∧
    (p.size = if multi then le 2 p.content.length else []) ∧ (multi = true → p.content.length < 2 ^ 16))
    ⟨fun ⟨a, b, c, d, e, f⟩ => ⟨a, b, c, d, e, f⟩, fun ⟨a, b, c, d, e, f⟩ => ⟨a, b, c, d, e, f⟩⟩

instance instDecidableWmvPacketOk (psize : Nat) (p : WmvPacket) : Decidable (p.Ok psize) :=
  decidable_of_iff (p.ec.length = 2 ∧ p.length.length = fieldSize (p.flags.toNat / 32 % 4) ∧
    p.sequence.length = fieldSize (p.flags.toNat / 2 % 4) ∧ p.padSize.length = fieldSize (p.flags.toNat / 8 % 4) ∧ p.time.length = 6 ∧
    (if p.multi then 1 ≤ p.payloads.length ∧ p.payloads.length < 64 else p.payloads.length = 1) ∧
    (∀ x ∈ p.payloads, x.Ok p.multi p.prop.toNat) ∧ p.bytes.length = psize ∧
    (if p.length = [] then p.padding.length = ofLe p.padSize
    else ofLe p.length ≤ psize ∧ p.padding.length = ofLe p.padSize + (psize - ofLe p.length)))
    ⟨fun ⟨a, b, c, d, e, f, g, h, i⟩ => ⟨a, b, c, d, e, f, g, h, i⟩, fun ⟨a, b, c, d, e, f, g, h, i⟩ => ⟨a, b, c, d, e, f, g, h, i⟩⟩

instance instDecidableWmvFileOk (w : WmvFile) : Decidable w.Ok :=
  decidable_of_iff ((∀ t ∈ w.before, t.Ok) ∧ (∀ t ∈ w.after, t.Ok) ∧ w.id.length = 16 ∧ w.reserved.length = 2 ∧ w.packets ≠ [] ∧
    (∀ p ∈ w.packets, p.Ok w.psize) ∧ w.bytes.length < 2 ^ 63)
    ⟨fun ⟨a, b, c, d, e, f, g⟩ => ⟨a, b, c, d, e, f, g⟩, fun ⟨a, b, c, d, e, f, g⟩ => ⟨a, b, c, d, e, f, g⟩⟩

instance instDecidableStreamsOk (w : WmvFile) : Decidable (StreamsOk w) :=
  decidable_of_iff ((∀ o ∈ w.objects, LongOk o) ∧ (declared w.objects).Nodup ∧
    ∀ n ∈ declared (w.after.flatMap WmvTop.objects), ∀ p ∈ w.pieces, p.stream ≠ n)
    ⟨fun ⟨a, b, c⟩ => ⟨a, b, c⟩, fun ⟨a, b, c⟩ => ⟨a, b, c⟩⟩

/-! ### A sample -/

/-- A payload with data, and one with small runs of data. -/
def wmvPlain (multi : Bool) (stream : UInt8) (rep d : Bytes) : WmvPayload :=
  ⟨stream, [7], [0, 0, 0, 0], [UInt8.ofNat rep.length], rep, if multi then le 2 d.length else [], .plain d⟩
def wmvRuns (multi : Bool) (stream : UInt8) (d : Bytes) (ds : List Bytes) : WmvPayload :=
  ⟨stream, [7], [0, 0, 0, 0], [1], [9], if multi then le 2 (WmvContent.runs d ds).length else [], .runs d ds⟩

def wmvPack (multi : Bool) (ps : List WmvPayload) (pad : Bytes) : WmvPacket :=
  ⟨[0, 0], if multi then 0x09 else 0x08, 0x5D, [], [], [UInt8.ofNat pad.length], [1, 2, 3, 4, 5, 6], ps, pad⟩

def wmvFileObject : WmvObject := ⟨fileGuid, List.replicate 24 1⟩
def wmvStreamObject (n : UInt8) : WmvObject := ⟨streamGuid, List.replicate 48 1 ++ [n, 0]⟩

/-- Two packets with the data of two streams in it, and padding that is not zero. -/
def wmvExample : WmvFile :=
  ⟨[.header [1, 2, 3, 4, 5, 6] [wmvFileObject, wmvStreamObject 1, wmvStreamObject 2]], List.replicate 16 5, [1, 1], 62,
   [wmvPack true [wmvPlain true 0x81 [1, 2, 3, 4, 5, 6, 7, 8] [10, 11, 12], wmvRuns true 2 [20] [[21, 22], [23]]] (List.replicate 12 0),
    wmvPack false [wmvRuns false 2 [24, 25] [[26, 27, 28]]] (List.replicate 35 3)],
   [.other ⟨List.replicate 16 9, [1, 2, 3]⟩]⟩

set_option maxRecDepth 100000 in
theorem wmvExample_ok : wmvExample.Ok := by decide +kernel

set_option maxRecDepth 100000 in
theorem wmvExample_streams : StreamsOk wmvExample := by decide +kernel

set_option maxRecDepth 100000 in
theorem wmvExample_lucky : wmvExample.Lucky := by
  intro a b h h2
  have hb : b = wmvExample.packets := by
    have hl := congrArg List.length h
    simp only [List.length_append] at hl
    have : a = [] := List.length_eq_zero_iff.1 (by
      have : wmvExample.packets.length = 2 := rfl
      omega)
    rw [this] at h
    exact h.symm
  rw [hb]
  decide +kernel

set_option maxRecDepth 100000 in
theorem wmvExample_small {srs : Bytes} (h : srsWmvCreate [0x61] [0x73] wmvExample.bytes false none = .ok srs) : srs.length < 2 ^ 63 := by
  have : (match srsWmvCreate [0x61] [0x73] wmvExample.bytes false none with
    | .ok srs => decide (srs.length < 2 ^ 63)
    | .error _ => true) = true := by decide +kernel
  rw [h] at this
  simpa using this

set_option maxRecDepth 100000 in
/-- The hypotheses of `wmv_create_succeeds` and `wmv_strip_rebuild_partial` are met: an SRS is created, and
the sample comes back. -/
example : ∃ srs padding f ts, srsWmvCreate [0x61] [0x73] wmvExample.bytes false none = .ok srs ∧
    wmvLoadSrs srs = .ok (f, padding, ts) ∧
    wmvRebuild srs padding [(1, {}), (2, {})]
      (fun n => if n = 1 then some [10, 11, 12, 0xFF] else if n = 2 then some [20, 21, 22, 23, 24, 25, 26, 27, 28] else none)
      = .ok (wmvExample.bytes, crc32 wmvExample.bytes 0) := by
  obtain ⟨srs, hs⟩ := wmv_create_succeeds (app := [0x61]) (name := [0x73]) (big := false) wmvExample_ok wmvExample_streams
    (Or.inr (by decide +kernel)) (by unfold Encodable; decide) (by unfold Encodable; decide)
  obtain ⟨padding, ts, h1, _, _, h2⟩ := wmv_strip_rebuild_partial wmvExample_ok (wmvExample_small hs) hs
  refine ⟨srs, padding, _, ts, hs, h1, h2 _ _ wmvExample_lucky ?_⟩
  intro n hn
  have hall : ∀ p ∈ wmvExample.pieces, p.stream = 1 ∨ p.stream = 2 := by decide +kernel
  obtain ⟨p, hp, rfl⟩ := hn
  rcases hall p hp with h | h <;> rw [h]
  · exact ⟨⟨_, List.mem_cons_self⟩, [0xFF], by decide +kernel⟩
  · exact ⟨⟨_, List.mem_cons_of_mem _ List.mem_cons_self⟩, [], by decide +kernel⟩

/-! ### Samples that are not rebuilt -/

/-- Like the example, with packets of 65 bytes: without data they are 36 and 29 bytes, together 65. -/
def wmvUnlucky : WmvFile :=
  { wmvExample with
    psize := 65
    packets := [wmvPack true [wmvPlain true 0x81 [1, 2, 3, 4, 5, 6, 7, 8] [10, 11, 12], wmvRuns true 2 [20] [[21, 22], [23]]] (List.replicate 15 0),
      wmvPack false [wmvRuns false 2 [24, 25] [[26, 27, 28]]] (List.replicate 38 3)] }

/-- Create, load and rebuild with the data of the streams: does the result differ? -/
def wmvLost (b : Bytes) (files : TrackFiles) : Bool :=
  match srsWmvCreate [0x61] [0x73] b false none with
  | .ok srs => (match wmvLoadSrs srs with
    | .ok (_, padding, ts) => (match wmvRebuild srs padding ts files with
      | .ok (out, _) => out != b
      | .error _ => false)
    | .error _ => false)
  | .error _ => false

theorem wmvLost_spec {b : Bytes} {files : TrackFiles} (h : wmvLost b files = true) :
    ∃ srs f padding ts out crc, srsWmvCreate [0x61] [0x73] b false none = .ok srs ∧ wmvLoadSrs srs = .ok (f, padding, ts) ∧
      wmvRebuild srs padding ts files = .ok (out, crc) ∧ out ≠ b := by
  unfold wmvLost at h
  split at h
  · rename_i srs h1
    split at h
    · rename_i f padding ts h2
      split at h
      · rename_i out crc h3
        exact ⟨srs, f, padding, ts, out, crc, h1, h2, h3, by simpa using h⟩
      · simp at h
    · simp at h
  · simp at h

set_option maxRecDepth 100000 in
/-- C67 is false when the last packets have unlucky sizes: the reader takes the first of them for the last,
and what comes after the packets is read at the wrong place. -/
theorem wmv_unlucky_lost : ∃ w : WmvFile, w.Ok ∧ StreamsOk w ∧ ∃ srs f padding ts out crc,
    srsWmvCreate [0x61] [0x73] w.bytes false none = .ok srs ∧ wmvLoadSrs srs = .ok (f, padding, ts) ∧
      wmvRebuild srs padding ts (fun n => some (streamData w.pieces n)) = .ok (out, crc) ∧ out ≠ w.bytes :=
  ⟨wmvUnlucky, by decide +kernel, by decide +kernel, wmvLost_spec (by decide +kernel)⟩

set_option maxRecDepth 100000 in
/-- C67 is false for samples with an object that has the GUID of an SRS object: it is not written back. -/
theorem wmv_own_object_lost : ∃ w : WmvFile, (∀ t ∈ w.before, t.Ok) ∧ (∀ p ∈ w.packets, p.Ok w.psize) ∧ ∃ srs f padding ts out crc,
    srsWmvCreate [0x61] [0x73] w.bytes false none = .ok srs ∧ wmvLoadSrs srs = .ok (f, padding, ts) ∧
      wmvRebuild srs padding ts (fun n => some (streamData w.pieces n)) = .ok (out, crc) ∧ out ≠ w.bytes :=
  ⟨{ wmvExample with after := [.other ⟨asfSrsPadding, paddingOf wmvExample.packets⟩] }, by decide +kernel, by decide +kernel,
    wmvLost_spec (by decide +kernel)⟩

set_option maxRecDepth 100000 in
/-- C67 is false with two data objects: only the padding of the last is kept.  Both have all their data. -/
theorem wmv_two_data_lost : ∃ v w : WmvFile, v.Ok ∧ w.Ok ∧ ∃ srs f padding ts out crc,
    srsWmvCreate [0x61] [0x73] (v.bytes ++ w.bytes) false none = .ok srs ∧ wmvLoadSrs srs = .ok (f, padding, ts) ∧
      wmvRebuild srs padding ts (fun n => some (streamData (v.pieces ++ w.pieces) n)) = .ok (out, crc) ∧ out ≠ v.bytes ++ w.bytes :=
  ⟨wmvExample, { wmvExample with before := [], packets := [wmvPack true [wmvPlain true 0x81 [1, 2, 3, 4, 5, 6, 7, 8] [10, 11, 12],
      wmvRuns true 2 [20] [[21, 22], [23]]] (List.replicate 12 0)] }, by decide +kernel, by decide +kernel,
    wmvLost_spec (by decide +kernel)⟩

set_option maxRecDepth 100000 in
/-- C67: no SRS is created when two streams have numbers that differ by 16: the reader uses four bits of the
seven that the number has. -/
theorem wmv_streams_confused : ∃ w : WmvFile, w.Ok ∧ (∀ o ∈ w.objects, LongOk o) ∧
    (w.objects.filter fun o => o.guid = streamGuid).map (fun o => ofLe (slice o.body 48 50) % 128) = [1, 17] ∧
    srsWmvCreate [0x61] [0x73] w.bytes false none = .error .assertError :=
  ⟨{ wmvExample with before := [.header [1, 2, 3, 4, 5, 6] [wmvStreamObject 1, wmvStreamObject 17]] }, by decide +kernel, by decide +kernel,
    by decide +kernel, by decide +kernel⟩

set_option maxRecDepth 100000 in
/-- C67: no SRS is created when the data object is longer than its packets. -/
theorem wmv_slack_refused : ∃ w : WmvFile, w.Ok ∧
    srsWmvCreate [0x61] [0x73] (asfBytes w.before ++ (dataGuid ++ (le 8 (50 + w.packets.length * w.psize + 1) ++ (w.id ++
      (le 8 w.packets.length ++ (w.reserved ++ (w.packets.flatMap WmvPacket.bytes ++ [0]))))))) false none = .error .assertError :=
  ⟨wmvExample, wmvExample_ok, by decide +kernel⟩

end Rescene.Props
