import Verif.Model.Riff
/-
WMV samples: /repo/resample/asf.py and the `wmv_*` functions of /repo/resample/main.py.  Not modelled:
what is printed.  A `ZeroDivisionError` is `.other`.
-/
namespace Rescene

/-- asf.py:37-45. -/
def asfHeaderGuid : Bytes := [0x30, 0x26, 0xB2, 0x75, 0x8E, 0x66, 0xCF, 0x11, 0xA6, 0xD9, 0x00, 0xAA, 0x00, 0x62, 0xCE, 0x6C]
def asfDataGuid : Bytes := [0x36, 0x26, 0xB2, 0x75, 0x8E, 0x66, 0xCF, 0x11, 0xA6, 0xD9, 0x00, 0xAA, 0x00, 0x62, 0xCE, 0x6C]
def asfStreamGuid : Bytes := [0x91, 0x07, 0xDC, 0xB7, 0xB7, 0xA9, 0xCF, 0x11, 0x8E, 0xE6, 0x00, 0xC0, 0x0C, 0x20, 0x53, 0x65]
def asfFileGuid : Bytes := [0xA1, 0xDC, 0xAB, 0x8C, 0x47, 0xA9, 0xCF, 0x11, 0x8E, 0xE4, 0x00, 0xC0, 0x0C, 0x20, 0x53, 0x65]
/-- `b"SRSFSRSFSRSFSRSF"`, `b"SRSTSRSTSRSTSRST"`, `b"PADDINGBYTESDATA"`. -/
def asfSrsFile : Bytes := mSRSF ++ (mSRSF ++ (mSRSF ++ mSRSF))
def asfSrsTrack : Bytes := mSRST ++ (mSRST ++ (mSRST ++ mSRST))
def asfSrsPadding : Bytes := [0x50, 0x41, 0x44, 0x44, 0x49, 0x4E, 0x47, 0x42, 0x59, 0x54, 0x45, 0x53, 0x44, 0x41, 0x54, 0x41]

/-- asf.py:54-56. -/
inductive AsfMode
  | wmv | sample | srs
  deriving DecidableEq, Repr

/-- asf.py:250-265: the attributes of a payload that are used. -/
structure AsfPayload where
  stream : Nat
  headerSize : Nat
  header : Bytes
  len : Int
  data : Bytes
  deriving DecidableEq, Repr

/-- asf.py:267-273 `getlen2b`. -/
def asfFieldLen (bits : Nat) : Nat := if bits = 3 then 4 else bits

/-- asf.py:275-286 `getvalue2b(bits, data[off:])`. -/
def asfFieldValue (bits : Nat) (data : Bytes) (off : Nat) : Res Nat :=
  if bits = 0 then .ok 0 else unpackAt (asfFieldLen bits) data off

/-- asf.py:288-331 `asf_data_read_packet_fields`: packet length, padding length and the length of the
fields.  `data` starts at the fields; the assertion at the end always holds. -/
def asfPacketFields (srs : Bool) (flags : Nat) (data : Bytes) (length : Nat) : Res (Nat × Nat × Nat) :=
  let l1 := asfFieldLen (flags / 32 % 4)
  let l2 := asfFieldLen (flags / 2 % 4)
  let l3 := asfFieldLen (flags / 8 % 4)
  if l2 + l3 + l1 + 6 > length then .error .valueError
  else if srs = false ∧ data.length ≠ length then .error .valueError
  else do
    let len ← asfFieldValue (flags / 32 % 4) data 0
    let _ ← asfFieldValue (flags / 2 % 4) data l1
    let pad ← asfFieldValue (flags / 8 % 4) data (l1 + l2)
    let _ ← unpackAt 4 data (l1 + l2 + l3)
    let _ ← unpackAt 2 data (l1 + l2 + l3 + 4)
    return (len, pad, l1 + l2 + l3 + 6)

/-- asf.py:535-552: how many payloads a compressed payload includes.  The second argument is a bound on
the number of turns that is never too small: `used` grows with each turn. -/
def asfCount (srs : Bool) (data : Bytes) (start : Nat) (len : Int) : Nat → Nat → Nat → Res Nat
  | 0, used, _ => if (used : Int) = len then .ok 0 else .error .valueError
  | fuel + 1, used, turns =>
    if (used : Int) < len then do
      let size ← unpackAt 1 data (start + if srs then turns else used)
      let k ← asfCount srs data start len fuel (used + 1 + size) (turns + 1)
      return k + 1
    else if (used : Int) = len then .ok 0 else .error .valueError

/-- asf.py:559-587: the payloads in a compressed payload, and where reading goes on. -/
def asfCompressed (srs : Bool) (data : Bytes) (stream : Nat) : Nat → Nat → Nat → Res (List AsfPayload × Nat)
  | 0, _, skip => .ok ([], skip)
  | k + 1, hs, skip => do
    let l ← unpackAt 1 data skip
    let p : AsfPayload := ⟨stream, hs + 1, slice data (skip + 1 - (hs + 1)) (skip + 1), l,
      if srs then [] else slice data (skip + 1) (skip + 1 + l)⟩
    let (ps, e) ← asfCompressed srs data stream k 0 (if srs then skip + 1 else skip + 1 + l)
    return (p :: ps, e)

/-- asf.py:333-351, 469-604 `asf_data_read_payloads`: the payloads, and how much was read.  The first number is
`packet.payload_count - i`: it goes down by one with each turn, also when a compressed payload changes
both.  `len(packet.payloads)` is `i`, so that the assertion of asf.py:460 always holds.  In an SRS the
data of the payloads is not used; here it is empty. -/
def asfPayloads (srs multi : Bool) (prop : Nat) (data : Bytes) (datalen : Int) : Nat → Nat → Res (List AsfPayload × Nat)
  | 0, skip => .ok ([], skip)
  | n + 1, skip =>
    let l1 := asfFieldLen (prop / 16 % 4)
    let l2 := asfFieldLen (prop / 4 % 4)
    let l3 := asfFieldLen (prop % 4)
    if srs = false ∧ (skip : Int) + 1 > datalen then .error .valueError
    else do
      let b ← unpackAt 1 data skip
      if srs = false ∧ ((l3 + l2 + l1 : Nat) : Int) > datalen - (skip + 1) then throw .valueError
      else do
        let _ ← asfFieldValue (prop / 16 % 4) data (skip + 1)
        let _ ← asfFieldValue (prop / 4 % 4) data (skip + 1 + l1)
        let rl ← asfFieldValue (prop % 4) data (skip + 1 + l1 + l2)
        let s := skip + 1 + l1 + l2 + l3
        let s2 ← (if rl > 1 then
            if rl < 8 ∨ ((rl + s : Nat) : Int) > datalen then .error .valueError
            else do
              let _ ← unpackAt 4 (slice data s (s + rl)) 4
              return s + rl
          else if rl = 1 then
            if (s : Int) + 1 > datalen then .error .valueError
            else do
              let _ ← unpackAt 1 data s
              return s + 1
          else .ok s : Res Nat)
        let (s3, len) ← (if multi then
            if (s2 : Int) + 2 > datalen then .error .valueError
            else do
              let l ← unpackAt 2 data s2
              return (s2 + 2, (l : Int))
          else .ok (s2, datalen - s2) : Res (Nat × Int))
        if rl = 1 then do
          let k ← asfCount srs data s3 len len.toNat 0 0
          let (ps, s4) ← asfCompressed srs data (b % 128) k (s3 - skip) s3
          let (rest, e) ← asfPayloads srs multi prop data datalen n s4
          return (ps ++ rest, e)
        else do
          let p : AsfPayload := ⟨b % 128, s3 - skip, slice data skip s3, len, if srs then [] else slice data s3 (s3 + len.toNat)⟩
          if srs = false ∧ (p.data.length : Int) ≠ len then throw .assertError
          else do
            let (rest, e) ← asfPayloads srs multi prop data datalen n (if srs then s3 else s3 + len.toNat)
            return (p :: rest, e)

/-- asf.py:223-248: the attributes of a packet that are used.  `head` is the length of what comes
before the payloads (`header_length` in an SRS, else `len(data) - payload_data_len`), `read` what
`asf_data_get_packet` returns. -/
structure AsfPacket where
  head : Nat
  padding : Nat
  payloads : List AsfPayload
  read : Nat
  deriving DecidableEq, Repr

/-- asf.py:353-467 `asf_data_get_packet`.  The flags of the error correction data can only be 0x82
(asf.py:358). -/
def asfPacket (srs : Bool) (data : Bytes) (packetSize : Int) : Res AsfPacket := do
  let ec ← unpackAt 1 data 0
  if ec ≠ 0x82 then throw .assertError
  else if 3 > packetSize then throw .valueError
  else if 5 > packetSize then throw .valueError
  else do
    let psize := packetSize.toNat
    let flags ← unpackAt 1 data 3
    let prop ← unpackAt 1 data 4
    let (length, pad, tmp) ← asfPacketFields srs flags (data.drop 5) (psize - 5)
    let length := if flags / 32 % 4 = 0 then psize else length
    if length > psize then throw .valueError
    else do
      let pad := pad + (psize - length)
      let (count, read) ← (if flags % 2 = 1 then
          if 5 + tmp + 1 > psize then .error .valueError
          else do
            let c ← unpackAt 1 data (5 + tmp)
            if c % 64 = 0 then throw .valueError
            else if c / 64 ≠ 2 then throw .valueError
            else return (c % 64, 5 + tmp + 1)
        else .ok (1, 5 + tmp) : Res (Nat × Nat))
      let (payloads, n) ← asfPayloads srs (flags % 2 == 1) prop (data.drop read) ((psize : Int) - read - pad) count 0
      if srs then return ⟨read, pad, payloads, read + n⟩
      else if psize - read ≠ n + pad then throw .assertError
      else return ⟨read, pad, payloads, psize⟩

/-- asf.py:61-70: `size` is the size field, or the size in the SRS for the data object of an SRS
(asf.py:162-163); `osize` is the size field. -/
structure AsfObj where
  guid : Bytes
  size : Nat
  raw : Bytes
  start : Nat
  osize : Nat
  deriving DecidableEq, Repr

/-- asf.py:144-146, main.py:1448-1450 and others: number of packets and their size. -/
def asfPackets (osize : Nat) (raw : Bytes) : Res (Nat × Int) := do
  let n ← unpackAt 8 raw 40
  if n = 0 then throw .other
  else return (n, ((osize : Int) - raw.length) / n)

/-- asf.py:147-163: the size of the packets of an SRS from `off` on. -/
def asfSrsSize (file : Bytes) (psize : Int) : Nat → Nat → Res Nat
  | 0, _ => .ok 0
  | n + 1, off => do
    let p ← asfPacket true (file.drop off) psize
    let r ← asfSrsSize file psize n (off + p.read)
    return p.read + r

/-- asf.py:94-170 `read`.  The assertion at the start is part of the loops below. -/
def asfRead (mode : AsfMode) (file : Bytes) (pos : Nat) : Res (Option AsfObj) :=
  if pos + 24 > file.length then .ok none
  else do
    let h := readAt file pos 24
    let guid := h.take 16
    let size ← unpackAt 8 h 16
    if mode = .sample ∧ guid ≠ asfDataGuid ∧ pos + size > file.length then throw .invalidData
    else
      let raw := h ++ (if guid = asfHeaderGuid then readAt file (pos + 24) 6
        else if guid = asfDataGuid then readAt file (pos + 24) 26 else [])
      if mode = .srs ∧ guid = asfDataGuid then do
        let (n, psize) ← asfPackets size raw
        let s ← asfSrsSize file psize n (pos + raw.length)
        return some ⟨guid, s + raw.length, raw, pos, size⟩
      else return some ⟨guid, size, raw, pos, size⟩

/-- asf.py:172-185 `read_contents`, and the position behind it.  A size that is less than that of the
header makes it read all that is left. -/
def asfContents (file : Bytes) (o : AsfObj) : Res (Bytes × Nat) :=
  if o.size < o.raw.length then .ok (file.drop (o.start + o.raw.length), file.length)
  else if o.size - o.raw.length < 2 ^ 63 then
    let data := readAt file (o.start + o.raw.length) (o.size - o.raw.length)
    .ok (data, o.start + o.raw.length + data.length)
  else .error .overflowError

/-- asf.py:194-198 `skip_contents`. -/
def asfSkip (o : AsfObj) : Res Nat := if o.start + o.size < 2 ^ 63 then .ok (o.start + o.size) else .error .overflowError

/-- asf.py:187-192 `read_data_part`.  A negative length reads all that is left. -/
def asfPart (file : Bytes) (off : Nat) (n : Int) : Res Bytes :=
  if n < 0 then .ok (file.drop off)
  else if off < 2 ^ 63 ∧ n < 2 ^ 63 then .ok (readAt file off n.toNat)
  else .error .overflowError

/-- The loops `for i in range(total_data_packets)`: `f` gets the position and the contents of each
packet and says whether to go on.  With a negative packet size the first packet is an error
(`asfPacket`). -/
def asfPacketLoop {σ : Type} (file : Bytes) (psize : Int) (f : σ → Nat → Bytes → Res (σ × Bool)) :
    Nat → Nat → σ → Res (σ × Bool)
  | 0, _, s => .ok (s, true)
  | n + 1, off, s => do
    let data ← asfPart file off psize
    let (s, go) ← f s off data
    if go then asfPacketLoop file psize f n (off + psize.toNat) s else return (s, false)

structure WmvProfile where
  crc : BitVec 32
  other : Nat
  tracks : Tracks
  /-- `wmv_data.padding_bytes`; `padding_amount` is its length (main.py:1506). -/
  padding : Option Bytes

/-- main.py:1469-1493: the tracks after one payload. -/
def wmvProfilePayload (tracks : Tracks) (p : AsfPayload) : Res Tracks :=
  let t := tracks.getNew p.stream
  if p.len ≠ p.data.length then .error .assertError
  else if p.headerSize ≠ p.header.length then .error .assertError
  else
    let sig := if t.sig.length < 256 then
        t.sig ++ p.data.take (min 256 (t.sig.length + p.data.length) - t.sig.length)
      else t.sig
    .ok (tracks.put p.stream { t with dataLength := t.dataLength + p.data.length, sig := sig })

/-- main.py:1453-1507: one turn of the loop over the packets.  The three assertions on the sizes say the
same; `payload_data_len` is never 0. -/
def wmvProfilePacket (psize : Int) (s : WmvProfile × Bytes) (_off : Nat) (data : Bytes) : Res ((WmvProfile × Bytes) × Bool) := do
  let crc := crc32 data s.1.crc
  let p ← asfPacket false data psize
  let tracks ← p.payloads.foldlM wmvProfilePayload s.1.tracks
  let sizes := (p.payloads.map fun x => x.data.length).sum
  let heads := (p.payloads.map fun x => x.headerSize).sum
  if data.length - p.head ≠ sizes + heads + p.padding then throw .assertError
  else return ((⟨crc, s.1.other + (data.length - sizes), tracks, s.1.padding⟩,
    s.2 ++ data.drop (data.length - p.padding)), true)

/-- main.py:1433-1535: the loop of `profile_wmv`.  When the packets do not fill the data object, the
assertion of asf.py:97 fails with the next `read`. -/
def wmvProfileLoop (file : Bytes) : Nat → Nat → WmvProfile → Res WmvProfile
  | 0, _, _ => .error .fuel
  | fuel + 1, pos, s => do
    match ← asfRead .sample file pos with
    | none => return s
    | some o =>
      let s : WmvProfile := { s with other := s.other + o.raw.length, crc := crc32 o.raw s.crc }
      if o.guid = asfHeaderGuid then wmvProfileLoop file fuel (pos + o.raw.length) s
      else if o.guid = asfDataGuid then do
        let (n, psize) ← asfPackets o.size o.raw
        let ((s, pad), _) ← asfPacketLoop file psize (wmvProfilePacket psize) n (pos + o.raw.length) (s, [])
        if (o.raw.length : Int) + n * psize ≠ o.size then throw .assertError
        else wmvProfileLoop file fuel (pos + o.size) { s with padding := some pad }
      else do
        let (data, q) ← asfContents file o
        let s : WmvProfile := { s with other := s.other + data.length, crc := crc32 data s.crc }
        let s ← (if o.guid = asfStreamGuid then do
            let flags ← unpackAt 2 data 48
            if s.tracks.any (·.1 == flags % 16) then throw .assertError
            else return { s with tracks := s.tracks.put (flags % 16) { number := flags % 16 } }
          else .ok s : Res WmvProfile)
        let _ ← (if o.guid = asfFileGuid then unpackAt 8 data 16 else .ok 0 : Res Nat)
        wmvProfileLoop file fuel q s

/-- main.py:1425-1580 `profile_wmv` and `wmv_profile_sample`: CRC, tracks and padding bytes. -/
def wmvProfile (sample : Bytes) : Res (BitVec 32 × Tracks × Option Bytes) := do
  let s ← wmvProfileLoop sample (sample.length + 1) 0 ⟨0, 0, [], none⟩
  if sample.length ≠ s.other + (s.tracks.map (·.2.dataLength)).sum then throw .incompleteSample
  else return (s.crc, s.tracks, s.padding)

/-- main.py:342-347, 488-493 `serialize_as_asf` and main.py:2041-2044. -/
def asfBlock (guid data : Bytes) : Res Bytes := do
  let n ← pack 8 (data.length + 16 + 8)
  return guid ++ (n ++ data)

/-- main.py:2023-2045: our objects.  Without padding bytes the attribute is missing. -/
def wmvSrsObjects (app name : Str) (size crc : Nat) (tracks : Tracks) (padding : Option Bytes) (bigFile : Bool) : Res Bytes := do
  let f ← fileSerialize app 3 name size crc
  let fb ← asfBlock asfSrsFile f
  let tb ← tracks.mapM fun (_, t) => do
    let t := if bigFile then { t with flags := t.flags ||| 4 } else t
    let d ← trackSerialize t
    asfBlock asfSrsTrack d
  match padding with
  | none => throw .attrError
  | some pad => do
    let pb ← (if pad.all (· == 0) then .ok [] else asfBlock asfSrsPadding pad : Res Bytes)
    return fb ++ (tb.flatten ++ pb)

/-- main.py:2006-2021: what is written of one packet. -/
def wmvCreatePacket (psize : Int) (out : Bytes) (_off : Nat) (data : Bytes) : Res (Bytes × Bool) := do
  let p ← asfPacket false data psize
  return (out ++ (data.take p.head ++ p.payloads.flatMap (·.header)), true)

/-- main.py:1992-2050: the loop of `wmv_create_srs`. -/
def wmvCreateLoop (own : Res Bytes) (file : Bytes) : Nat → Nat → Bytes → Res Bytes
  | 0, _, _ => .error .fuel
  | fuel + 1, pos, out => do
    match ← asfRead .wmv file pos with
    | none => return out
    | some o =>
      let out := out ++ o.raw
      if o.guid = asfDataGuid then do
        let (n, psize) ← asfPackets o.size o.raw
        let (out, _) ← asfPacketLoop file psize (wmvCreatePacket psize) n (pos + o.raw.length) out
        let b ← own
        if (o.raw.length : Int) + n * psize ≠ o.size then throw .assertError
        else wmvCreateLoop own file fuel (pos + o.size) (out ++ b)
      else do
        let (data, q) ← asfContents file o
        wmvCreateLoop own file fuel q (out ++ data)

/-- main.py:1992-2050 `wmv_create_srs`: the bytes of the SRS. -/
def wmvCreateSrs (app name : Str) (size crc : Nat) (tracks : Tracks) (padding : Option Bytes) (bigFile : Bool) (sample : Bytes) :
    Res Bytes :=
  wmvCreateLoop (wmvSrsObjects app name size crc tracks padding bigFile) sample (sample.length + 1) 0 []

/-- What `wmv_load_srs` has read: the description with its `padding_bytes`, and the tracks. -/
structure WmvLoaded where
  file : Option (FileData × Option Bytes)
  tracks : Tracks

/-- main.py:824-838: the loop of `wmv_load_srs`. -/
def wmvLoadLoop (file : Bytes) : Nat → Nat → WmvLoaded → Res WmvLoaded
  | 0, _, _ => .error .fuel
  | fuel + 1, pos, s => do
    match ← asfRead .srs file pos with
    | none => return s
    | some o =>
      if o.guid = asfSrsFile then do
        let (data, q) ← asfContents file o
        let f ← fileParse data
        wmvLoadLoop file fuel q ⟨some (f, none), s.tracks⟩
      else if o.guid = asfSrsTrack then do
        let (data, q) ← asfContents file o
        let t ← trackParse data
        wmvLoadLoop file fuel q ⟨s.file, s.tracks.put t.number t⟩
      else if o.guid = asfSrsPadding then do
        let (data, q) ← asfContents file o
        match s.file with
        | none => throw .unboundLocal
        | some (f, _) => wmvLoadLoop file fuel q ⟨some (f, some data), s.tracks⟩
      else do
        let q ← asfSkip o
        wmvLoadLoop file fuel q s

/-- main.py:821-840 `wmv_load_srs`: description, padding bytes and tracks.  The step budget is enough
unless an object claims to have no bytes, when the loop does not end (`wmv_load_ends`,
`wmv_load_hangs`). -/
def wmvLoadSrs (file : Bytes) : Res (FileData × Option Bytes × Tracks) := do
  let s ← wmvLoadLoop file (file.length + 1) 0 ⟨none, []⟩
  match s.file with
  | none => throw .unboundLocal
  | some (f, pad) => return (f, pad, s.tracks)

/-- main.py:2641-2723: one payload in the search; `prev` is `packet.data_file_offset +
prev_payloads_size`, the second part of the state is `done`: all tracks were found.  `data_length` is
the length of the data, except in an SRS. -/
def wmvFindPayload (s : Tracks × Bool) (prev : Nat) (p : AsfPayload) : Res (Tracks × Bool) :=
  let n := p.stream
  let t := s.1.getNew n
  if t.matchOffset = 0 ∨ t.checkBytes.length < t.sig.length then
    let t1 := if 0 < t.checkBytes.length ∧ t.checkBytes.length < t.sig.length then
        let cb := t.checkBytes ++
          p.data.take (min t.sig.length (p.data.length + t.checkBytes.length) - t.checkBytes.length)
        if cb.isPrefixOf t.sig then { t with checkBytes := cb }
        else { t with checkBytes := [], matchOffset := 0, matchLength := 0 }
      else t
    if t1.checkBytes = [] then
      if t.sig = [] then .error .indexError
      else
        match aviScan t.sig p.data with
        | some i => .ok (s.1.put n { t1 with checkBytes := (p.data.drop i).take t.sig.length, matchOffset := prev + p.headerSize + i,
                                             matchLength := min t.dataLength (p.data.length - i) }, s.2)
        | none => .ok (s.1.put n t1, s.2)
    else .ok (s.1.put n { t1 with matchLength := min (t1.dataLength - t1.matchLength) p.data.length }, s.2)
  else if t.matchLength < t.dataLength then
    let tracks := s.1.put n { t with matchLength := t.matchLength + min (t.dataLength - t.matchLength) p.data.length }
    .ok (tracks, !tracks.any fun x => decide (x.2.matchLength < x.2.dataLength))
  else .ok (s.1.put n t, s.2)

/-- main.py:2641-2727: the payloads of a packet. -/
def wmvFindPayloads : List AsfPayload → Nat → Tracks × Bool → Res (Tracks × Bool)
  | [], _, s => .ok s
  | p :: ps, prev, s => do
    let s ← wmvFindPayload s prev p
    wmvFindPayloads ps (prev + p.data.length + p.headerSize) s

/-- main.py:2628-2729: one turn of the loop over the packets. -/
def wmvFindPacket (psize : Int) (s : Tracks × Bool) (off : Nat) (data : Bytes) : Res ((Tracks × Bool) × Bool) := do
  let p ← asfPacket false data psize
  let s ← wmvFindPayloads p.payloads off s
  return (s, !s.2)

/-- main.py:2619-2733: the loop of `wmv_find_sample_streams`; it is over after the first data object:
the next `read` does not fail. -/
def wmvFindLoop (file : Bytes) : Nat → Nat → Tracks → Res Tracks
  | 0, _, _ => .error .fuel
  | fuel + 1, pos, tracks => do
    match ← asfRead .wmv file pos with
    | none => return tracks
    | some o =>
      if o.guid = asfDataGuid then do
        let (n, psize) ← asfPackets o.size o.raw
        let (s, _) ← asfPacketLoop file psize (wmvFindPacket psize) n (pos + o.raw.length) (tracks, false)
        let _ ← asfSkip o
        return s.1
      else do
        let q ← asfSkip o
        wmvFindLoop file fuel q tracks

/-- main.py:2615-2738 `wmv_find_sample_streams`. -/
def wmvFind (tracks : Tracks) (main : Bytes) : Res Tracks := wmvFindLoop main (main.length + 1) 0 tracks

structure WmvExtract where
  tracks : Tracks
  files : TrackFiles
  done : Bool

/-- main.py:3304-3342: one payload in the extraction. -/
def wmvExtractPayload (s : WmvExtract) (prev : Nat) (p : AsfPayload) : WmvExtract :=
  let n := p.stream
  let t := s.tracks.getNew n
  let tracks := if s.tracks.any (·.1 == n) then s.tracks else s.tracks.put n t
  let pos : Int := prev + p.headerSize
  if pos + p.data.length ≥ t.matchOffset then
    let f := (s.files n).getD []
    let f := if f.length < t.dataLength then
        if pos ≥ t.matchOffset then f ++ p.data
        else f ++ p.data.drop (t.matchOffset - pos).toNat
      else f
    let files := s.files.set n f
    ⟨tracks, files, !tracks.any fun x =>
      match files x.1 with
      | none => true
      | some b => decide (b.length < x.2.dataLength)⟩
  else ⟨tracks, s.files, s.done⟩

def wmvExtractPayloads : List AsfPayload → Nat → WmvExtract → WmvExtract
  | [], _, s => s
  | p :: ps, prev, s => wmvExtractPayloads ps (prev + p.data.length + p.headerSize) (wmvExtractPayload s prev p)

/-- main.py:3284-3346: the loop over the packets.  Those that end before `startOffset` are not read. -/
def wmvExtractLoop (file : Bytes) (psize : Int) (startOffset : Nat) : Nat → Nat → WmvExtract → Res WmvExtract
  | 0, _, s => .ok s
  | n + 1, off, s =>
    if (off : Int) + psize < startOffset then wmvExtractLoop file psize startOffset n (off + psize.toNat) s
    else do
      let data ← asfPart file off psize
      if (data.length : Int) ≠ psize then throw .assertError
      else do
        let p ← asfPacket false data psize
        let s := wmvExtractPayloads p.payloads off s
        if s.done then return s else wmvExtractLoop file psize startOffset n (off + psize.toNat) s

/-- main.py:3274-3349: the loop of `wmv_extract_sample_streams`.  Once all is there, one more object is
read. -/
def wmvExtractObjects (file : Bytes) (startOffset : Nat) : Nat → Nat → WmvExtract → Res WmvExtract
  | 0, _, _ => .error .fuel
  | fuel + 1, pos, s => do
    match ← asfRead .sample file pos with
    | none => return s
    | some o =>
      if s.done then return s
      else if o.guid = asfDataGuid then do
        let (n, psize) ← asfPackets o.size o.raw
        let s ← wmvExtractLoop file psize startOffset n (pos + o.raw.length) s
        let q ← asfSkip o
        wmvExtractObjects file startOffset fuel q s
      else do
        let q ← asfSkip o
        wmvExtractObjects file startOffset fuel q s

/-- main.py:3263-3354 `wmv_extract_sample_streams`. -/
def wmvExtract (tracks : Tracks) (main : Bytes) : Res (Tracks × TrackFiles) := do
  let start := tracks.foldl (fun m t => if t.2.matchOffset > 0 then min t.2.matchOffset.toNat m else m) (2 ^ 63)
  let s ← wmvExtractObjects main start (main.length + 1) 0 ⟨tracks, fun _ => none, false⟩
  return (s.tracks, s.files)

/-- What `wmv_rebuild_sample` has written: contents, CRC, what is left of the tracks and
`padding_index`. -/
structure WmvRebuild where
  out : Bytes
  crc : BitVec 32
  files : TrackFiles
  padding : Nat

/-- Write some bytes. -/
def WmvRebuild.write (s : WmvRebuild) (b : Bytes) : WmvRebuild := { s with out := s.out ++ b, crc := crc32 b s.crc }

/-- main.py:3721-3732: one payload.  A negative length reads all that is left of the track. -/
def wmvRebuildPayload (tracks : Tracks) (s : WmvRebuild) (p : AsfPayload) : Res WmvRebuild :=
  if tracks.any (·.1 == p.stream) then
    if p.headerSize ≠ p.header.length then .error .assertError
    else
      match s.files p.stream with
      | none => .error .attrError
      | some rest =>
        let n := if p.len < 0 then rest.length else p.len.toNat
        .ok { (s.write p.header).write (rest.take n) with files := s.files.set p.stream (rest.drop n) }
  else .error .keyError

/-- main.py:3734-3743: the padding bytes. -/
def wmvRebuildPadding (padding : Option Bytes) (s : WmvRebuild) (n : Nat) : WmvRebuild :=
  match padding with
  | some b => { s.write (slice b s.padding (s.padding + n)) with padding := s.padding + n }
  | none => s.write (List.replicate n 0)

/-- main.py:3701-3743: the packets, of `psize` bytes each in the sample.  `fin` is where the data object
ends in the SRS.  The result is the state, whether `read_done` was set (asf.py:188-190: a packet read
with `psize` bytes ends there) and the position in the file. -/
def wmvRebuildLoop (file : Bytes) (psize : Int) (fin : Nat) (tracks : Tracks) (padding : Option Bytes) :
    Nat → Nat → WmvRebuild × Bool × Nat → Res (WmvRebuild × Bool × Nat)
  | 0, _, s => .ok s
  | n + 1, off, (s, done, _) => do
    let data ← asfPart file off psize
    let p ← asfPacket true data psize
    let s := s.write (data.take p.head)
    let s ← p.payloads.foldlM (wmvRebuildPayload tracks) s
    let s := wmvRebuildPadding padding s p.padding
    wmvRebuildLoop file psize fin tracks padding n (off + p.read)
      (s, done || decide ((off : Int) + psize = fin), off + data.length)

/-- main.py:3675-3751: the loop of `wmv_rebuild_sample`.  After the data object the program skips to its
end, unless `read_done` was set. -/
def wmvRebuildObjects (file : Bytes) (tracks : Tracks) (padding : Option Bytes) : Nat → Nat → WmvRebuild → Res WmvRebuild
  | 0, _, _ => .error .fuel
  | fuel + 1, pos, s => do
    match ← asfRead .srs file pos with
    | none => return s
    | some o =>
      if o.guid = asfSrsFile ∨ o.guid = asfSrsTrack ∨ o.guid = asfSrsPadding then do
        let q ← asfSkip o
        wmvRebuildObjects file tracks padding fuel q s
      else
        let s := s.write o.raw
        if o.guid = asfDataGuid then do
          let (n, psize) ← asfPackets o.osize o.raw
          let (s, done, p) ← wmvRebuildLoop file psize (o.start + o.size) tracks padding n (pos + o.raw.length)
            (s, false, pos + o.raw.length)
          let q ← (if done then .ok p else asfSkip o : Res Nat)
          wmvRebuildObjects file tracks padding fuel q s
        else do
          let (data, q) ← asfContents file o
          wmvRebuildObjects file tracks padding fuel q (s.write data)

/-- main.py:3666-3758 `wmv_rebuild_sample`: contents and CRC of the result.  Tracks without file are
allowed (main.py:3459-3462). -/
def wmvRebuild (srs : Bytes) (padding : Option Bytes) (tracks : Tracks) (files : TrackFiles) : Res (Bytes × BitVec 32) := do
  let s ← wmvRebuildObjects srs tracks padding (srs.length + 1) 0 ⟨[], 0, files, 0⟩
  return (s.out, s.crc)

/-- srs.py:294-378: create the SRS of a WMV sample.  `check` is the main file given with `-c`. -/
def srsWmvCreate (app name : Str) (sample : Bytes) (bigFile : Bool) (check : Option Bytes) : Res Bytes :=
  if sample.length ≥ 0x80000000 ∧ bigFile = false then .error .other
  else do
    let (crc, tracks, padding) ← wmvProfile sample
    if tracks = [] then throw .other
    else do
      let tracks ← (match check with
        | none => .ok tracks
        | some main => do
          let tr ← wmvFind tracks main
          if videoUnlocated tr then throw .other
          else return tr.filter (fun t => t.2.sig ≠ []) : Res Tracks)
      wmvCreateSrs app name sample.length crc.toNat tracks padding bigFile sample

/-- srs.py:438-516, 586: rebuild a WMV sample from its SRS and a main file. -/
def srsWmvReconstruct (srs main : Bytes) (ignoreOffset : Bool) : Res SrsResult := do
  let (f, padding, tracks) ← wmvLoadSrs srs
  let tracks ← (if ignoreOffset = true ∨ tracks.any (fun t => t.2.matchOffset == 0) = true then do
      let tr ← wmvFind tracks main
      if videoUnlocated tr then throw .other   -- exit status 3
      else return tr
    else .ok tracks : Res Tracks)
  let (tracks, files) ← wmvExtract tracks main
  if tracks.any (fun t => t.2.sig ≠ [] && (match files t.1 with
      | none => true
      | some b => decide (b.length < t.2.dataLength))) then throw .other   -- exit status 4
  else do
    let (out, crc) ← wmvRebuild srs padding tracks files
    return ⟨out, f.size, f.crc, crc.toNat == f.crc⟩

end Rescene
