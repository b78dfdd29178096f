import Verif.Lemmas.WmvSrs
import Verif.Props.Riff
/-
The SRS of a WMV file: making it, loading it and rebuilding the file from it.
-/
namespace Rescene
open Spec

/-! ### Profile of a file -/

theorem objects_eq (w : WmvFile) : declared w.objects = declared (w.before.flatMap WmvTop.objects) ++ declared (w.after.flatMap WmvTop.objects) := by
  rw [WmvFile.objects, List.flatMap_append, declared_append]

theorem wmvProfile_ok {w : WmvFile} (h : w.Ok) {crc : BitVec 32} {ts : Tracks} {pad : Option Bytes}
    (he : wmvProfile w.bytes = .ok (crc, ts, pad)) :
    crc = crc32 w.bytes 0 ∧ WmvTracks (declared w.objects) w.pieces ts ∧ pad = some (paddingOf w.packets) := by
  unfold wmvProfile at he
  obtain ⟨f, h1, h2⟩ := wmvProfileLoop_file h (w.bytes.length + 1) (by omega) ⟨0, 0, [], none⟩
  rw [h1] at he
  simp only [bind_eq_ok] at he
  obtain ⟨s3, ⟨s1, e1, s2, e2, e3⟩, he⟩ := he
  have a := profTops_inv (s := ⟨0, 0, [], none⟩) h.before wmvTracks_nil e1
  obtain ⟨s2', g1, g2, g3, g4, g5⟩ := h2 s1 _ a.tracks
  rw [g1] at e2
  injection e2 with e2
  subst e2
  have b := profTops_inv h.after g3 e3
  split at he
  · simp at he
  · simp only [pure_eq_ok, Except.ok.injEq, Prod.mk.injEq] at he
    obtain ⟨rfl, rfl, rfl⟩ := he
    refine ⟨?_, ?_, by rw [b.padding, g2]⟩
    · rw [b.crc, g4, a.crc, ← crc32_append, ← crc32_append]
      simp [WmvFile.bytes]
    · have := b.tracks
      rwa [List.nil_append, ← objects_eq] at this

theorem wmvProfile_accepts {w : WmvFile} (h : w.Ok) (hs : StreamsOk w) :
    ∃ ts, wmvProfile w.bytes = .ok (crc32 w.bytes 0, ts, some (paddingOf w.packets)) ∧ WmvTracks (declared w.objects) w.pieces ts := by
  obtain ⟨f, h1, h2⟩ := wmvProfileLoop_file h (w.bytes.length + 1) (by omega) ⟨0, 0, [], none⟩
  have hlong := hs.long
  rw [WmvFile.objects, List.flatMap_append] at hlong
  have honce := hs.once
  rw [objects_eq] at honce
  obtain ⟨s1, e1⟩ := profTops_accepts (s := ⟨0, 0, [], none⟩) h.before (fun o ho => hlong o (List.mem_append_left _ ho)) wmvTracks_nil
    (by rw [List.nil_append]; rw [List.nodup_append] at honce; exact honce.1) (by simp)
  have a := profTops_inv (s := ⟨0, 0, [], none⟩) h.before wmvTracks_nil e1
  obtain ⟨s2, g1, g2, g3, g4, g5⟩ := h2 s1 _ a.tracks
  obtain ⟨s3, e3⟩ := profTops_accepts (s := s2) h.after (fun o ho => hlong o (List.mem_append_right _ ho)) g3
    (by rw [List.nil_append]; exact honce) hs.first
  have b := profTops_inv h.after g3 e3
  have hl : wmvProfileLoop w.bytes (w.bytes.length + 1) 0 ⟨0, 0, [], none⟩ = .ok s3 := by
    rw [h1, e1, ok_bind, g1, ok_bind, e3]
  have hcrc : s3.crc = crc32 w.bytes 0 := by
    rw [b.crc, g4, a.crc, ← crc32_append, ← crc32_append]
    simp [WmvFile.bytes]
  have htot : w.bytes.length = s3.other + (s3.tracks.map (·.2.dataLength)).sum := by
    have h1 := a.total
    have h2 := b.total
    simp only [WmvFile.bytes, List.length_append] at g5 h1 h2 ⊢
    simp only [List.map_nil, List.sum_nil] at h1
    omega
  refine ⟨s3.tracks, ?_, ?_⟩
  · unfold wmvProfile
    rw [hl]
    simp only [ok_bind]
    rw [if_neg (by omega), hcrc, b.padding, g2]
    rfl
  · have := b.tracks
    rwa [List.nil_append, ← objects_eq] at this

/-! ### Creating -/

theorem flat_zero_fuel {o : WmvObject} (ho : FlatOk o) {file pre post : Bytes} (hf : file = pre ++ (o.bytes ++ post))
    (hfu : file.length < pre.length + 0) : False := by
  rw [hf] at hfu
  have := ho.bytes_length
  simp only [List.length_append] at hfu
  omega

theorem asfBytes_cons (t : WmvTop) (ts : List WmvTop) : asfBytes (t :: ts) = t.bytes ++ asfBytes ts := by simp [asfBytes]

theorem create_tops {own : Res Bytes} {file : Bytes} : ∀ {ts : List WmvTop} {pre post : Bytes} (fuel : Nat) (out : Bytes),
    (∀ t ∈ ts, t.Ok) → file = pre ++ (asfBytes ts ++ post) → file.length < pre.length + fuel →
    ∃ fuel', file.length < (pre ++ asfBytes ts).length + fuel' ∧
      wmvCreateLoop own file fuel pre.length out = wmvCreateLoop own file fuel' (pre ++ asfBytes ts).length (out ++ asfBytes ts) := by
  intro ts
  induction ts with
  | nil => intro pre post fuel out _ _ hfu; exact ⟨fuel, by simpa [asfBytes] using hfu, by simp [asfBytes]⟩
  | cons t ts ih =>
    intro pre post fuel out ho hf hfu
    have hfl := (ho t List.mem_cons_self).flat
    have hf' : file = pre ++ (t.flat.bytes ++ (asfBytes ts ++ post)) := by rw [hf, asfBytes_cons, t.flat_bytes, List.append_assoc]
    cases fuel with
    | zero => exact absurd hfu (flat_zero_fuel hfl hf')
    | succ fuel =>
      rw [wmvCreateLoop, asfRead_flat hfl hf']
      simp only [ok_bind]
      rw [if_neg (show ¬ (flatObj pre.length t.flat).guid = asfDataGuid from hfl.data), asfContents_flat hfl hf']
      simp only [ok_bind]
      rw [show (flatObj pre.length t.flat).raw = rawOf t.flat from rfl, List.append_assoc out, raw_rest, t.flat_bytes]
      obtain ⟨f', h1, h2⟩ := ih (pre := pre ++ t.bytes) (post := post) fuel (out ++ t.bytes) (fun x hx => ho x (List.mem_cons_of_mem _ hx))
        (by rw [hf, asfBytes_cons]; simp) (by
          have := hfl.bytes_length
          rw [t.flat_bytes] at this
          rw [List.length_append]
          omega)
      refine ⟨f', by rw [asfBytes_cons]; simpa using h1, ?_⟩
      rw [h2, asfBytes_cons]
      simp

theorem create_packet {psize : Nat} {p : WmvPacket} (hp : p.Ok psize) (out : Bytes) (off : Nat) :
    wmvCreatePacket psize out off p.bytes = .ok (out ++ p.stripped, true) := by
  unfold wmvCreatePacket
  rw [asfPacket_sample hp]
  simp only [ok_bind, pure_eq_ok]
  have h1 : p.bytes.take p.head.length = p.head := by rw [p.bytes_eq, List.take_left]
  rw [h1, List.flatMap_map]
  rfl

theorem create_packets {psize : Nat} : ∀ {ps : List WmvPacket} (out : Bytes) (off : Nat), (∀ p ∈ ps, p.Ok psize) →
    packetFold psize (wmvCreatePacket psize) ps off out = .ok (out ++ ps.flatMap WmvPacket.stripped, true) := by
  intro ps
  induction ps with
  | nil => intro out off _; simp [packetFold]
  | cons p ps ih =>
    intro out off h
    rw [packetFold, create_packet (h p List.mem_cons_self)]
    simp only [ok_bind, if_true]
    rw [ih _ _ fun q hq => h q (List.mem_cons_of_mem _ hq)]
    simp

/-- The SRS, when our objects are `own`. -/
def wmvSrsBytes (w : WmvFile) (own : Bytes) : Bytes :=
  asfBytes w.before ++ (w.dataHead ++ (w.packets.flatMap WmvPacket.stripped ++ (own ++ asfBytes w.after)))

theorem wmvCreateLoop_ok {w : WmvFile} (h : w.Ok) {own : Res Bytes} :
    wmvCreateLoop own w.bytes (w.bytes.length + 1) 0 [] = (do let b ← own; return wmvSrsBytes w b) := by
  have hdl := dataHead_length h
  have hpl := packets_length h
  obtain ⟨f1, h1, h2⟩ := create_tops (own := own) (file := w.bytes) (pre := [])
    (post := w.dataHead ++ (w.packets.flatMap WmvPacket.bytes ++ asfBytes w.after)) (w.bytes.length + 1) [] h.before rfl (by simp)
  rw [List.nil_append] at h1 h2
  have hlen : w.bytes.length = (asfBytes w.before).length + 50 + w.packets.length * w.psize + (asfBytes w.after).length := by
    simp only [WmvFile.bytes, List.length_append, hdl, hpl]
    omega
  obtain ⟨g, rfl⟩ : ∃ g, f1 = g + 1 := by
    cases f1 with
    | zero => omega
    | succ g => exact ⟨g, rfl⟩
  have hlp := fun out => asfPacketLoop_ok (file := w.bytes) (psize := w.psize) (f := wmvCreatePacket w.psize) h.size (ps := w.packets)
    (pre := asfBytes w.before ++ w.dataHead) (post := asfBytes w.after) (s := out) h.packets (by simp [WmvFile.bytes])
  rw [show (0 : Nat) = ([] : Bytes).length from rfl, h2, wmvCreateLoop, asfRead_data (mode := .wmv) (file := w.bytes) (by decide) h rfl]
  simp only [ok_bind]
  rw [if_pos (show (dataObj (asfBytes w.before).length w).guid = asfDataGuid from rfl),
    show (dataObj (asfBytes w.before).length w).raw = w.dataHead from rfl,
    show (dataObj (asfBytes w.before).length w).size = 50 + w.packets.length * w.psize from rfl, asfPackets_data h]
  simp only [ok_bind]
  rw [← List.length_append, hlp, create_packets _ _ h.packets]
  simp only [ok_bind]
  cases own with
  | error e => rfl
  | ok b =>
    simp only [ok_bind]
    rw [if_neg (by rw [hdl]; simp only [Int.natCast_add, Int.natCast_mul]; omega)]
    have e0 : (asfBytes w.before).length + (50 + w.packets.length * w.psize) =
        (asfBytes w.before ++ (w.dataHead ++ w.packets.flatMap WmvPacket.bytes)).length := by simp only [List.length_append, hdl, hpl]
    have : 11 ≤ w.psize := by
      obtain ⟨p, hp⟩ := List.exists_mem_of_ne_nil _ h.some
      have h2 := (h.packets p hp).pos
      have h3 := (h.packets p hp).short
      omega
    obtain ⟨f3, h3, h4⟩ := create_tops (own := .ok b) (file := w.bytes) (pre := asfBytes w.before ++ (w.dataHead ++ w.packets.flatMap WmvPacket.bytes))
      (post := []) g (asfBytes w.before ++ w.dataHead ++ w.packets.flatMap WmvPacket.stripped ++ b) h.after (by simp [WmvFile.bytes])
      (by rw [← e0]; omega)
    have e : asfBytes w.before ++ (w.dataHead ++ w.packets.flatMap WmvPacket.bytes) ++ asfBytes w.after = w.bytes := by simp [WmvFile.bytes]
    rw [e] at h3 h4
    obtain ⟨k, rfl⟩ : ∃ k, f3 = k + 1 := by
      cases f3 with
      | zero => omega
      | succ k => exact ⟨k, rfl⟩
    rw [e0, h4, wmvCreateLoop, asfRead_end _ _ (by omega)]
    simp [wmvSrsBytes]

/-! ### Our objects -/

/-- Our objects: the description, the tracks, and the padding unless it is zeros. -/
def ownObjects (f : Bytes) (ds : List Bytes) (pad : Bytes) : List WmvObject :=
  ⟨asfSrsFile, f⟩ :: (ds.map (⟨asfSrsTrack, ·⟩) ++ if pad.all (· == 0) then [] else [⟨asfSrsPadding, pad⟩])

theorem asfBlock_ok {guid data b : Bytes} (h : asfBlock guid data = .ok b) :
    data.length + 24 < 2 ^ 64 ∧ b = (⟨guid, data⟩ : WmvObject).bytes := by
  unfold asfBlock at h
  simp only [bind_eq_ok, pack_eq_ok, pure_eq_ok, Except.ok.injEq] at h
  obtain ⟨_, ⟨hl, rfl⟩, rfl⟩ := h
  exact ⟨hl, by simp only [WmvObject.bytes]; rw [show data.length + 16 + 8 = 24 + data.length by omega]⟩

theorem own_tracks_objects {big : Bool} {tracks : Tracks} : ∀ {tb : List Bytes},
    (∀ p ∈ tracks, p.1 = p.2.number ∧ p.2.number < 2 ^ 16 ∧ p.2.flags = 0) →
    tracks.mapM (fun (x : Nat × TrackData) => do
      let t := if big then { x.2 with flags := x.2.flags ||| 4 } else x.2
      let d ← trackSerialize t
      asfBlock asfSrsTrack d) = .ok tb →
    ∃ ds, OwnTracks big tracks ds ∧ tb.flatten = (ds.map (⟨asfSrsTrack, ·⟩)).flatMap WmvObject.bytes := by
  induction tracks with
  | nil =>
    intro tb _ h
    simp at h; subst h
    exact ⟨[], .nil, rfl⟩
  | cons p ts ih =>
    intro tb hp h
    rw [mapM_ok_cons] at h
    obtain ⟨x, xs, h1, h2, rfl⟩ := h
    simp only [bind_eq_ok] at h1
    obtain ⟨d, hd, hb⟩ := h1
    obtain ⟨hn, hlt, hfl⟩ := hp p (by simp)
    obtain ⟨hl, rfl⟩ := asfBlock_ok hb
    obtain ⟨ds, hds, he⟩ := ih (fun q hq => hp q (by simp [hq])) h2
    refine ⟨d :: ds, .cons (flagged_parse hlt hfl hd) hn (by have := Props.track_data_short hd; omega) hds, ?_⟩
    rw [List.flatten_cons, he, List.map_cons, List.flatMap_cons]

theorem wmvSrsObjects_ok {app name : Str} {size crc : Nat} {tracks : Tracks} {big : Bool} {pad b : Bytes}
    (ht : ∀ p ∈ tracks, p.1 = p.2.number ∧ p.2.number < 2 ^ 16 ∧ p.2.flags = 0)
    (h : wmvSrsObjects app name size crc tracks (some pad) big = .ok b) :
    ∃ f ds, fileParse f = .ok ⟨3, app, basename name, size, crc % 2 ^ 32⟩ ∧ f.length < 2 ^ 32 ∧ OwnTracks big tracks ds ∧
      b = (ownObjects f ds pad).flatMap WmvObject.bytes := by
  unfold wmvSrsObjects at h
  simp only [bind_eq_ok, pure_eq_ok, Except.ok.injEq] at h
  obtain ⟨f, hf, fb, hfb, tb, htb, pb, hpb, rfl⟩ := h
  obtain ⟨hl, rfl⟩ := asfBlock_ok hfb
  obtain ⟨ds, hds, he⟩ := own_tracks_objects (big := big) ht (by rw [← htb])
  have := Props.file_data_round_trip hf []
  rw [List.append_nil] at this
  refine ⟨f, ds, this, by have := Props.file_data_short hf; omega, hds, ?_⟩
  rw [ownObjects, List.flatMap_cons, List.flatMap_append, he]
  congr 2
  split at hpb
  · rename_i hz
    injection hpb with hpb
    subst hpb
    rw [if_pos hz]
    rfl
  · rename_i hz
    obtain ⟨_, rfl⟩ := asfBlock_ok hpb
    rw [if_neg hz]
    simp

/-! ### Loading -/

theorem Spec.WmvTop.Ok.not_own {t : WmvTop} (h : t.Ok) : t.flat.guid ≠ asfSrsFile ∧ t.flat.guid ≠ asfSrsTrack ∧ t.flat.guid ≠ asfSrsPadding := by
  cases t with
  | other o =>
    have := h.2
    simp only [srsGuids, List.mem_cons, List.not_mem_nil, or_false, not_or] at this
    exact this
  | header r inner => exact ⟨by simp [WmvTop.flat]; decide, by simp [WmvTop.flat]; decide, by simp [WmvTop.flat]; decide⟩

theorem load_wmv_tops {file : Bytes} (hs : file.length < 2 ^ 63) : ∀ {ts : List WmvTop} {pre post : Bytes} (fuel : Nat) (s : WmvLoaded),
    (∀ t ∈ ts, t.Ok) → file = pre ++ (asfBytes ts ++ post) → file.length < pre.length + fuel →
    ∃ fuel', file.length < (pre ++ asfBytes ts).length + fuel' ∧
      wmvLoadLoop file fuel pre.length s = wmvLoadLoop file fuel' (pre ++ asfBytes ts).length s := by
  intro ts
  induction ts with
  | nil => intro pre post fuel out _ _ hfu; exact ⟨fuel, by simpa [asfBytes] using hfu, by simp [asfBytes]⟩
  | cons t ts ih =>
    intro pre post fuel s ho hf hfu
    have hfl := (ho t List.mem_cons_self).flat
    obtain ⟨n1, n2, n3⟩ := (ho t List.mem_cons_self).not_own
    have hf' : file = pre ++ (t.flat.bytes ++ (asfBytes ts ++ post)) := by rw [hf, asfBytes_cons, t.flat_bytes, List.append_assoc]
    cases fuel with
    | zero => exact absurd hfu (flat_zero_fuel hfl hf')
    | succ fuel =>
      rw [wmvLoadLoop, asfRead_flat hfl hf']
      simp only [ok_bind]
      rw [if_neg (show ¬ (flatObj pre.length t.flat).guid = asfSrsFile from n1), if_neg (show ¬ (flatObj pre.length t.flat).guid = asfSrsTrack from n2),
        if_neg (show ¬ (flatObj pre.length t.flat).guid = asfSrsPadding from n3), asfSkip_flat (post := asfBytes ts ++ post) hfl (by rw [← hf']; exact hs)]
      simp only [ok_bind]
      rw [t.flat_bytes]
      obtain ⟨f', h1, h2⟩ := ih (pre := pre ++ t.bytes) (post := post) fuel s (fun x hx => ho x (List.mem_cons_of_mem _ hx))
        (by rw [hf, asfBytes_cons]; simp) (by
          have := hfl.bytes_length
          rw [t.flat_bytes] at this
          rw [List.length_append]
          omega)
      refine ⟨f', by rw [asfBytes_cons]; simpa using h1, ?_⟩
      rw [h2, asfBytes_cons]
      simp

theorem own_flat {guid body : Bytes} (hg : guid = asfSrsFile ∨ guid = asfSrsTrack ∨ guid = asfSrsPadding) (hb : 24 + body.length < 2 ^ 63) :
    FlatOk ⟨guid, body⟩ ∧ restOf ⟨guid, body⟩ = body := by
  rcases hg with rfl | rfl | rfl
  · exact ⟨⟨rfl, show asfSrsFile ≠ dataGuid by decide, fun e => absurd e (show ¬ asfSrsFile = headerGuid by decide), hb⟩, rfl⟩
  · exact ⟨⟨rfl, show asfSrsTrack ≠ dataGuid by decide, fun e => absurd e (show ¬ asfSrsTrack = headerGuid by decide), hb⟩, rfl⟩
  · exact ⟨⟨rfl, show asfSrsPadding ≠ dataGuid by decide, fun e => absurd e (show ¬ asfSrsPadding = headerGuid by decide), hb⟩, rfl⟩

theorem load_own_tracks {big : Bool} {tracks : Tracks} {ds : List Bytes} (hd : OwnTracks big tracks ds) {file : Bytes} :
    ∀ {pre post : Bytes} (fuel : Nat) (f : Option (FileData × Option Bytes)) (acc : Tracks),
    (acc ++ tracks).Pairwise (fun a b => a.1 ≠ b.1) →
    file = pre ++ ((ds.map (⟨asfSrsTrack, ·⟩)).flatMap WmvObject.bytes ++ post) → file.length < pre.length + fuel →
    ∃ fuel', file.length < (pre ++ (ds.map (⟨asfSrsTrack, ·⟩)).flatMap WmvObject.bytes).length + fuel' ∧
      wmvLoadLoop file fuel pre.length ⟨f, acc⟩ = wmvLoadLoop file fuel' (pre ++ (ds.map (⟨asfSrsTrack, ·⟩)).flatMap WmvObject.bytes).length
        ⟨f, acc ++ tracks.map fun p => (p.1, readTrack big p.2)⟩ := by
  induction hd with
  | nil => intro pre post fuel f acc _ _ hfu; exact ⟨fuel, by simpa using hfu, by simp⟩
  | @cons p ts d ds hpar hn hl hd ih =>
    intro pre post fuel f acc hpw hf hfu
    have e : acc.put (readTrack big p.2).number (readTrack big p.2) = acc ++ [(p.1, readTrack big p.2)] := by
      rw [put_new]
      · simp [readTrack, hn]
      · intro q hq he
        have := (List.pairwise_append.1 hpw).2.2 q hq p (by simp)
        exact this (he.trans hn.symm)
    obtain ⟨hfl, hrest⟩ := own_flat (guid := asfSrsTrack) (body := d) (by simp) (by omega)
    have hf' : file = pre ++ ((⟨asfSrsTrack, d⟩ : WmvObject).bytes ++ ((ds.map (⟨asfSrsTrack, ·⟩)).flatMap WmvObject.bytes ++ post)) := by
      rw [hf, List.map_cons, List.flatMap_cons, List.append_assoc]
    cases fuel with
    | zero => exact absurd hfu (flat_zero_fuel hfl hf')
    | succ fuel =>
      rw [wmvLoadLoop, asfRead_flat hfl hf']
      simp only [ok_bind]
      rw [if_neg (show ¬ (flatObj pre.length ⟨asfSrsTrack, d⟩).guid = asfSrsFile by simp [flatObj]; decide),
        if_pos (show (flatObj pre.length ⟨asfSrsTrack, d⟩).guid = asfSrsTrack from rfl), asfContents_flat hfl hf', hrest]
      simp only [ok_bind]
      rw [hpar]
      simp only [ok_bind]
      rw [e]
      obtain ⟨f', h1, h2⟩ := ih (pre := pre ++ (⟨asfSrsTrack, d⟩ : WmvObject).bytes) (post := post) fuel f (acc ++ [(p.1, readTrack big p.2)]) (by
        rw [List.append_assoc]
        rw [List.pairwise_append] at hpw ⊢
        refine ⟨hpw.1, ?_, ?_⟩
        · have := hpw.2.1
          rw [List.pairwise_cons] at this
          rw [List.singleton_append, List.pairwise_cons]
          exact this
        · intro a ha b hb
          rcases List.mem_cons.1 hb with rfl | hb
          · exact hpw.2.2 a ha p (by simp)
          · exact hpw.2.2 a ha b (List.mem_cons_of_mem _ hb)) (by rw [hf']; simp) (by
          have := hfl.bytes_length
          rw [List.length_append]
          omega)
      refine ⟨f', by simpa using h1, ?_⟩
      rw [h2]
      simp

/-- What is loaded as the padding. -/
def paddingLoaded (pad : Bytes) : Option Bytes := if pad.all (· == 0) then none else some pad

theorem load_wmv_own {big : Bool} {tracks : Tracks} {ds : List Bytes} (hd : OwnTracks big tracks ds) {f pad : Bytes} {fd : FileData}
    (hp : fileParse f = .ok fd) (hfl : f.length < 2 ^ 32) (hpl : 24 + pad.length < 2 ^ 63)
    (hpw : tracks.Pairwise (fun a b => a.1 ≠ b.1)) {file pre post : Bytes} (fuel : Nat)
    (hf : file = pre ++ ((ownObjects f ds pad).flatMap WmvObject.bytes ++ post)) (hfu : file.length < pre.length + fuel) :
    ∃ fuel', file.length < (pre ++ (ownObjects f ds pad).flatMap WmvObject.bytes).length + fuel' ∧
      wmvLoadLoop file fuel pre.length ⟨none, []⟩ = wmvLoadLoop file fuel' (pre ++ (ownObjects f ds pad).flatMap WmvObject.bytes).length
        ⟨some (fd, paddingLoaded pad), tracks.map fun p => (p.1, readTrack big p.2)⟩ := by
  obtain ⟨hflat, hrest⟩ := own_flat (guid := asfSrsFile) (body := f) (by simp) (by omega)
  rw [ownObjects, List.flatMap_cons, List.flatMap_append] at hf ⊢
  have hf' : file = pre ++ ((⟨asfSrsFile, f⟩ : WmvObject).bytes ++ ((ds.map (⟨asfSrsTrack, ·⟩)).flatMap WmvObject.bytes ++
      ((if pad.all (· == 0) then [] else [⟨asfSrsPadding, pad⟩] : List WmvObject).flatMap WmvObject.bytes ++ post))) := by
    rw [hf]; simp
  cases fuel with
  | zero => exact absurd hfu (flat_zero_fuel hflat hf')
  | succ fuel =>
    rw [wmvLoadLoop, asfRead_flat hflat hf']
    simp only [ok_bind]
    rw [if_pos (show (flatObj pre.length ⟨asfSrsFile, f⟩).guid = asfSrsFile from rfl), asfContents_flat hflat hf', hrest]
    simp only [ok_bind]
    rw [hp]
    simp only [ok_bind]
    obtain ⟨f1, h1, h2⟩ := load_own_tracks hd (file := file) (pre := pre ++ (⟨asfSrsFile, f⟩ : WmvObject).bytes) (post :=
      (if pad.all (· == 0) then [] else [⟨asfSrsPadding, pad⟩] : List WmvObject).flatMap WmvObject.bytes ++ post) fuel (some (fd, none)) []
      (by simpa using hpw) (by rw [hf']; simp) (by
        have := hflat.bytes_length
        rw [List.length_append]
        omega)
    rw [h2, List.nil_append]
    by_cases hz : pad.all (· == 0) = true
    · refine ⟨f1, by rw [if_pos hz]; simpa using h1, ?_⟩
      rw [if_pos hz, paddingLoaded, if_pos hz]
      simp
    · obtain ⟨hfp, hrp⟩ := own_flat (guid := asfSrsPadding) (body := pad) (by simp) hpl
      rw [if_neg hz] at hf' ⊢
      have hf2 : file = (pre ++ (⟨asfSrsFile, f⟩ : WmvObject).bytes ++ (ds.map (⟨asfSrsTrack, ·⟩)).flatMap WmvObject.bytes) ++
          ((⟨asfSrsPadding, pad⟩ : WmvObject).bytes ++ post) := by rw [hf']; simp
      cases f1 with
      | zero => exact absurd h1 (flat_zero_fuel hfp hf2)
      | succ f1 =>
        rw [wmvLoadLoop, asfRead_flat hfp hf2]
        simp only [ok_bind]
        rw [if_neg (by simp [flatObj]; decide), if_neg (by simp [flatObj]; decide),
          if_pos (by simp [flatObj]), asfContents_flat hfp hf2, hrp]
        simp only [ok_bind]
        refine ⟨f1, ?_, ?_⟩
        · have := hfp.bytes_length
          simp only [List.length_append, List.flatMap_cons, List.flatMap_nil, List.append_nil] at h1 ⊢
          omega
        · rw [paddingLoaded, if_neg hz]
          simp

theorem data_srs_skip {pre : Bytes} {w : WmvFile} (hw : w.Ok) {post : Bytes} {file : Bytes}
    (hf : file = pre ++ (w.dataHead ++ (w.packets.flatMap WmvPacket.stripped ++ post))) (hs : file.length < 2 ^ 63) :
    asfSkip (dataSrsObj pre.length w) = .ok (pre ++ (w.dataHead ++ w.packets.flatMap WmvPacket.stripped)).length := by
  have hdl := dataHead_length hw
  have h : pre.length + (50 + (w.packets.flatMap WmvPacket.stripped).length) < 2 ^ 63 := by
    rw [hf] at hs
    simp only [List.length_append, hdl] at hs
    omega
  rw [List.length_append, List.length_append, hdl]
  exact if_pos h

theorem wmvLoad_ok {w : WmvFile} (h : w.Ok) {big : Bool} {tracks : Tracks} {ds : List Bytes} (hd : OwnTracks big tracks ds) {f : Bytes}
    {fd : FileData} (hp : fileParse f = .ok fd) (hfl : f.length < 2 ^ 32) (hpw : tracks.Pairwise (fun a b => a.1 ≠ b.1))
    (hs : (wmvSrsBytes w ((ownObjects f ds (paddingOf w.packets)).flatMap WmvObject.bytes)).length < 2 ^ 63)
    (hpl : 24 + (paddingOf w.packets).length < 2 ^ 63) :
    wmvLoadSrs (wmvSrsBytes w ((ownObjects f ds (paddingOf w.packets)).flatMap WmvObject.bytes)) =
      .ok (fd, paddingLoaded (paddingOf w.packets), tracks.map fun p => (p.1, readTrack big p.2)) := by
  generalize hfile : wmvSrsBytes w ((ownObjects f ds (paddingOf w.packets)).flatMap WmvObject.bytes) = file at hs ⊢
  have e1 : file = [] ++ (asfBytes w.before ++ (w.dataHead ++ (w.packets.flatMap WmvPacket.stripped ++
      ((ownObjects f ds (paddingOf w.packets)).flatMap WmvObject.bytes ++ asfBytes w.after)))) := by rw [← hfile]; rfl
  obtain ⟨f1, h1, h2⟩ := load_wmv_tops hs (file.length + 1) ⟨none, []⟩ h.before e1 (by simp)
  have hdl := dataHead_length h
  have hlen := congrArg List.length e1
  simp only [List.length_append, List.length_nil, Nat.zero_add, hdl] at hlen
  rw [List.nil_append] at h1 h2 e1
  obtain ⟨g, rfl⟩ : ∃ g, f1 = g + 1 := by
    cases f1 with
    | zero => omega
    | succ g => exact ⟨g, rfl⟩
  have h3 : wmvLoadLoop file (g + 1) (asfBytes w.before).length ⟨none, []⟩ =
      wmvLoadLoop file g (asfBytes w.before ++ (w.dataHead ++ w.packets.flatMap WmvPacket.stripped)).length ⟨none, []⟩ := by
    rw [wmvLoadLoop, asfRead_srs_data h e1]
    simp only [ok_bind]
    rw [if_neg (by simp [dataSrsObj]; decide), if_neg (by simp [dataSrsObj]; decide), if_neg (by simp [dataSrsObj]; decide),
      data_srs_skip h e1 hs]
    rfl
  obtain ⟨f2, h4, h5⟩ := load_wmv_own hd hp hfl hpl hpw (file := file) (pre := asfBytes w.before ++ (w.dataHead ++ w.packets.flatMap WmvPacket.stripped))
    (post := asfBytes w.after) g (by rw [e1]; simp) (by simp only [List.length_append, hdl]; omega)
  obtain ⟨f3, h6, h7⟩ := load_wmv_tops hs f2 ⟨some (fd, paddingLoaded (paddingOf w.packets)), tracks.map fun p => (p.1, readTrack big p.2)⟩
    (ts := w.after) (post := []) h.after (by rw [e1]; simp) h4
  have e : asfBytes w.before ++ (w.dataHead ++ w.packets.flatMap WmvPacket.stripped) ++
      (ownObjects f ds (paddingOf w.packets)).flatMap WmvObject.bytes ++ asfBytes w.after = file := by rw [e1]; simp
  rw [e] at h6 h7
  obtain ⟨k, rfl⟩ : ∃ k, f3 = k + 1 := by
    cases f3 with
    | zero => omega
    | succ k => exact ⟨k, rfl⟩
  unfold wmvLoadSrs
  rw [List.length_nil] at h2
  rw [h2, h3, h5, h7, wmvLoadLoop, asfRead_end _ _ (by omega)]
  rfl

/-! ### Rebuilding -/

/-- The files have the data of these payloads. -/
def HasStreams (tracks : Tracks) (files : TrackFiles) (ps : List WmvPiece) : Prop :=
  ∀ n, (∃ p ∈ ps, p.stream = n) → n ∈ trackKeys tracks ∧ ∃ rest, files n = some (streamData ps n ++ rest)

theorem rebuild_payload {tracks : Tracks} {s : WmvRebuild} {p : WmvPiece} {ps : List WmvPiece} (h : HasStreams tracks s.files (p :: ps)) :
    ∃ s' : WmvRebuild, wmvRebuildPayload tracks s (asfOf true p) = .ok s' ∧ s'.out = s.out ++ (p.head ++ p.data) ∧
      s'.crc = crc32 (p.head ++ p.data) s.crc ∧ s'.padding = s.padding ∧ HasStreams tracks s'.files ps := by
  obtain ⟨h1, rest, h2⟩ := h p.stream ⟨p, by simp, rfl⟩
  rw [show p :: ps = [p] ++ ps from rfl, streamData_append, streamData_single, if_pos rfl, List.append_assoc] at h2
  refine ⟨{ (s.write p.head).write p.data with files := s.files.set p.stream (streamData ps p.stream ++ rest) }, ?_, ?_, ?_, rfl, ?_⟩
  · have hany : tracks.any (·.1 == (asfOf true p).stream) = true := any_key.2 h1
    unfold wmvRebuildPayload
    rw [if_pos hany, if_neg (by simp [asfOf]), show (asfOf true p).stream = p.stream from rfl, h2,
      show (asfOf true p).len = (p.data.length : Int) from rfl, show (asfOf true p).header = p.head from rfl]
    simp only
    rw [if_neg (by omega), Int.toNat_natCast, List.take_left, List.drop_left]
  · simp [WmvRebuild.write]
  · simp [WmvRebuild.write, crc32_append]
  · intro n hn
    obtain ⟨q, hq, hqn⟩ := hn
    obtain ⟨g1, r, g2⟩ := h n ⟨q, by simp [hq], hqn⟩
    refine ⟨g1, ?_⟩
    dsimp only
    unfold TrackFiles.set
    by_cases hk : n = p.stream
    · subst hk; exact ⟨rest, by simp⟩
    · refine ⟨r, ?_⟩
      rw [if_neg hk, g2, show p :: ps = [p] ++ ps from rfl, streamData_append, streamData_single, if_neg (fun e => hk e.symm), List.nil_append]

theorem rebuild_payloads {tracks : Tracks} : ∀ {ps qs : List WmvPiece} {s : WmvRebuild}, HasStreams tracks s.files (ps ++ qs) →
    ∃ s' : WmvRebuild, (ps.map (asfOf true)).foldlM (wmvRebuildPayload tracks) s = .ok s' ∧ s'.out = s.out ++ shown false ps ∧
      s'.crc = crc32 (shown false ps) s.crc ∧ s'.padding = s.padding ∧ HasStreams tracks s'.files qs := by
  intro ps
  induction ps with
  | nil => intro qs s h; exact ⟨s, rfl, by simp, by simp [crc32], rfl, h⟩
  | cons p ps ih =>
    intro qs s h
    obtain ⟨s1, h1, h2, h3, h4, h5⟩ := rebuild_payload h
    obtain ⟨s2, g1, g2, g3, g4, g5⟩ := ih h5
    refine ⟨s2, ?_, ?_, ?_, by rw [g4, h4], g5⟩
    · rw [List.map_cons, List.foldlM_cons, h1, ok_bind, g1]
    · rw [g2, h2]; simp
    · rw [g3, h3, ← crc32_append]; simp

/-- The padding that was loaded gives the padding of the packets from here on. -/
def PaddingFrom (pad : Option Bytes) (index : Nat) (b : Bytes) : Prop :=
  match pad with
  | some p => p.drop index = b
  | none => b = List.replicate b.length 0

theorem rebuild_padding {pad : Option Bytes} {s : WmvRebuild} {a b : Bytes} (h : PaddingFrom pad s.padding (a ++ b)) :
    ∃ s', wmvRebuildPadding pad s a.length = s' ∧ s'.out = s.out ++ a ∧ s'.crc = crc32 a s.crc ∧ s'.files = s.files ∧
      PaddingFrom pad s'.padding b := by
  refine ⟨_, rfl, ?_⟩
  unfold wmvRebuildPadding
  cases pad with
  | some p =>
    have h' : p.drop s.padding = a ++ b := h
    have hs : slice p s.padding (s.padding + a.length) = a := by
      unfold slice
      rw [List.drop_take, h', Nat.add_sub_cancel_left, List.take_left]
    simp only [hs]
    refine ⟨rfl, rfl, rfl, ?_⟩
    show p.drop (s.padding + a.length) = b
    rw [← List.drop_drop, h', List.drop_left]
  | none =>
    have h' : a ++ b = List.replicate (a ++ b).length 0 := h
    rw [List.length_append, ← List.replicate_append_replicate] at h'
    obtain ⟨h1, h2⟩ := List.append_inj h' (by simp)
    refine ⟨?_, ?_, rfl, h2⟩
    · show s.out ++ _ = _
      rw [← h1]
    · show crc32 _ _ = _
      rw [← h1]

theorem rebuild_packets {tracks : Tracks} {pad : Option Bytes} {psize : Nat} {file : Bytes} (hsz : file.length < 2 ^ 63) (hpsz : psize < 2 ^ 63) {qs : List WmvPiece} :
    ∀ {ps : List WmvPacket} {pre post : Bytes} {s : WmvRebuild} {q : Nat}, (∀ p ∈ ps, p.Ok psize) → ps ≠ [] →
    (∀ a b, ps = a ++ b → 2 ≤ b.length → (b.flatMap WmvPacket.stripped).length ≠ psize) →
    file = pre ++ (ps.flatMap WmvPacket.stripped ++ post) →
    HasStreams tracks s.files (ps.flatMap WmvPacket.pieces ++ qs) → PaddingFrom pad s.padding (paddingOf ps) →
    ∃ (s' : WmvRebuild) (d : Bool) (e : Nat),
      wmvRebuildLoop file psize (pre ++ ps.flatMap WmvPacket.stripped).length tracks pad ps.length pre.length (s, false, q) = .ok (s', d, e) ∧
      (d = true → e = (pre ++ ps.flatMap WmvPacket.stripped).length) ∧
      s'.out = s.out ++ ps.flatMap WmvPacket.bytes ∧ s'.crc = crc32 (ps.flatMap WmvPacket.bytes) s.crc := by
  intro ps
  induction ps with
  | nil => intro pre post s q _ hne; exact absurd rfl hne
  | cons p ps ih =>
    intro pre post s q hok _ hlucky hf hdata hpad
    have hp := hok p List.mem_cons_self
    have hfl := congrArg List.length hf
    simp only [List.length_append, List.flatMap_cons] at hfl
    have hshort := hp.short
    have hpart : asfPart file pre.length (psize : Int) = .ok (p.stripped ++ (ps.flatMap WmvPacket.stripped ++ post).take (psize - p.stripped.length)) := by
      unfold asfPart
      rw [if_neg (by omega), if_pos (by omega), Int.toNat_natCast, readAt]
      rw [hf, List.drop_left, List.flatMap_cons, List.append_assoc, List.take_append, List.take_of_length_le hshort]
    rw [List.flatMap_cons, List.append_assoc] at hdata
    obtain ⟨s2, h1, h2, h3, h4, h5⟩ := rebuild_payloads (s := s.write p.head) hdata
    have hpad' : PaddingFrom pad s2.padding (p.padding ++ paddingOf ps) := by
      rw [h4]
      show PaddingFrom pad s.padding _
      simpa [paddingOf] using hpad
    obtain ⟨s3, g1, g2, g3, g4, g5⟩ := rebuild_padding hpad'
    have hout : s3.out = s.out ++ p.bytes := by
      rw [g2, h2, p.bytes_eq]; simp [WmvRebuild.write]
    have hcrc : s3.crc = crc32 p.bytes s.crc := by
      rw [g3, h3, p.bytes_eq, crc32_append, crc32_append]; rfl
    rw [List.length_cons, wmvRebuildLoop, hpart]
    simp only [ok_bind]
    rw [asfPacket_srs hp rfl]
    simp only [ok_bind]
    have htake : (p.stripped ++ (ps.flatMap WmvPacket.stripped ++ post).take (psize - p.stripped.length)).take p.head.length = p.head := by
      rw [p.stripped_eq, List.append_assoc, List.take_left]
    rw [htake, h1]
    simp only [ok_bind]
    rw [g1]
    by_cases hps : ps = []
    · subst hps
      refine ⟨s3, _, _, rfl, ?_, by rw [hout]; simp, by rw [hcrc]; simp⟩
      intro hd
      simp only [Bool.false_or, decide_eq_true_eq, List.flatMap_cons, List.flatMap_nil, List.append_nil, List.length_append] at hd ⊢
      simp only [List.nil_append, List.length_take]
      omega
    · have hl := hlucky [] (p :: ps) rfl (by have := List.length_pos_iff.2 hps; simp; omega)
      rw [List.flatMap_cons, List.length_append] at hl
      have hnd : (false || decide ((pre.length : Int) + (psize : Int) = ((pre ++ (p :: ps).flatMap WmvPacket.stripped).length : Nat))) = false := by
        simp only [Bool.false_or, decide_eq_false_iff_not, List.length_append, List.flatMap_cons]
        omega
      rw [hnd]
      obtain ⟨s4, d, e, k1, k2, k3, k4⟩ := ih (pre := pre ++ p.stripped) (post := post) (s := s3)
        (q := pre.length + (p.stripped ++ (ps.flatMap WmvPacket.stripped ++ post).take (psize - p.stripped.length)).length)
        (fun x hx => hok x (List.mem_cons_of_mem _ hx)) hps
        (fun a b hab => hlucky (p :: a) b (by rw [hab]; rfl)) (by rw [hf]; simp) (by rw [g4]; exact h5) g5
      refine ⟨s4, d, e, ?_, ?_, ?_, ?_⟩
      · rw [← List.length_append, ← k1]
        simp
      · intro hd
        rw [k2 hd]
        simp
      · rw [k3, hout]; simp
      · rw [k4, hcrc, List.flatMap_cons, crc32_append]

theorem rebuild_tops {tracks : Tracks} {pad : Option Bytes} {file : Bytes} : ∀ {ts : List WmvTop} {pre post : Bytes} (fuel : Nat)
    (s : WmvRebuild), (∀ t ∈ ts, t.Ok) → file = pre ++ (asfBytes ts ++ post) → file.length < pre.length + fuel →
    ∃ (fuel' : Nat) (s' : WmvRebuild), file.length < (pre ++ asfBytes ts).length + fuel' ∧
      wmvRebuildObjects file tracks pad fuel pre.length s = wmvRebuildObjects file tracks pad fuel' (pre ++ asfBytes ts).length s' ∧
      s'.out = s.out ++ asfBytes ts ∧ s'.crc = crc32 (asfBytes ts) s.crc ∧ s'.files = s.files ∧ s'.padding = s.padding := by
  intro ts
  induction ts with
  | nil => intro pre post fuel s _ _ hfu; exact ⟨fuel, s, by simpa [asfBytes] using hfu, by simp [asfBytes], by simp [asfBytes], by simp [asfBytes, crc32], rfl, rfl⟩
  | cons t ts ih =>
    intro pre post fuel s ho hf hfu
    have hfl := (ho t List.mem_cons_self).flat
    obtain ⟨n1, n2, n3⟩ := (ho t List.mem_cons_self).not_own
    have hf' : file = pre ++ (t.flat.bytes ++ (asfBytes ts ++ post)) := by rw [hf, asfBytes_cons, t.flat_bytes, List.append_assoc]
    cases fuel with
    | zero => exact absurd hfu (flat_zero_fuel hfl hf')
    | succ fuel =>
      rw [wmvRebuildObjects, asfRead_flat hfl hf']
      simp only [ok_bind]
      rw [if_neg (show ¬ ((flatObj pre.length t.flat).guid = asfSrsFile ∨ (flatObj pre.length t.flat).guid = asfSrsTrack ∨
          (flatObj pre.length t.flat).guid = asfSrsPadding) from fun h => h.elim n1 fun h => h.elim n2 n3),
        if_neg (show ¬ (flatObj pre.length t.flat).guid = asfDataGuid from hfl.data), asfContents_flat hfl hf',
        show (flatObj pre.length t.flat).raw = rawOf t.flat from rfl]
      simp only [ok_bind]
      rw [t.flat_bytes]
      obtain ⟨f', s', h1, h2, h3, h4, h5, h6⟩ := ih (pre := pre ++ t.bytes) (post := post) fuel ((s.write (rawOf t.flat)).write (restOf t.flat))
        (fun x hx => ho x (List.mem_cons_of_mem _ hx)) (by rw [hf, asfBytes_cons]; simp) (by
          have := hfl.bytes_length
          rw [t.flat_bytes] at this
          rw [List.length_append]
          omega)
      refine ⟨f', s', by rw [asfBytes_cons]; simpa using h1, ?_, ?_, ?_, h5, h6⟩
      · rw [h2, asfBytes_cons]
        simp
      · rw [h3, asfBytes_cons, ← t.flat_bytes, ← raw_rest]
        simp [WmvRebuild.write]
      · rw [h4, asfBytes_cons, ← t.flat_bytes, ← raw_rest]
        simp [WmvRebuild.write, crc32_append]

theorem rebuild_own_objects {tracks : Tracks} {pad : Option Bytes} {file : Bytes} (hs : file.length < 2 ^ 63) :
    ∀ {os : List WmvObject} {pre post : Bytes} (fuel : Nat) (s : WmvRebuild),
    (∀ o ∈ os, (o.guid = asfSrsFile ∨ o.guid = asfSrsTrack ∨ o.guid = asfSrsPadding)) →
    file = pre ++ (os.flatMap WmvObject.bytes ++ post) → file.length < pre.length + fuel →
    ∃ fuel', file.length < (pre ++ os.flatMap WmvObject.bytes).length + fuel' ∧
      wmvRebuildObjects file tracks pad fuel pre.length s =
        wmvRebuildObjects file tracks pad fuel' (pre ++ os.flatMap WmvObject.bytes).length s := by
  intro os
  induction os with
  | nil => intro pre post fuel s _ _ hfu; exact ⟨fuel, by simpa using hfu, by simp⟩
  | cons o os ih =>
    intro pre post fuel s ho hf hfu
    have hg := ho o List.mem_cons_self
    have hlen := congrArg List.length hf
    simp only [List.flatMap_cons, List.length_append] at hlen
    have hbl : o.bytes.length = o.guid.length + 8 + o.body.length := by simp [WmvObject.bytes]; omega
    have hgl : o.guid.length = 16 := by rcases hg with h | h | h <;> rw [h] <;> rfl
    have hfl := (own_flat (guid := o.guid) (body := o.body) hg (by omega)).1
    have hf' : file = pre ++ (o.bytes ++ (os.flatMap WmvObject.bytes ++ post)) := by rw [hf, List.flatMap_cons, List.append_assoc]
    cases fuel with
    | zero => exact absurd hfu (flat_zero_fuel hfl hf')
    | succ fuel =>
      rw [wmvRebuildObjects, asfRead_flat hfl hf']
      simp only [ok_bind]
      rw [if_pos (show ((flatObj pre.length o).guid = asfSrsFile ∨ (flatObj pre.length o).guid = asfSrsTrack ∨
          (flatObj pre.length o).guid = asfSrsPadding) from hg), asfSkip_flat (post := os.flatMap WmvObject.bytes ++ post) hfl (by rw [← hf']; exact hs)]
      simp only [ok_bind]
      obtain ⟨f', h1, h2⟩ := ih (pre := pre ++ o.bytes) (post := post) fuel s (fun x hx => ho x (List.mem_cons_of_mem _ hx))
        (by rw [hf']; simp) (by rw [List.length_append]; omega)
      refine ⟨f', by simpa using h1, ?_⟩
      rw [show (⟨o.guid, o.body⟩ : WmvObject) = o from rfl, h2]
      simp

theorem paddingFrom_loaded (pad : Bytes) : PaddingFrom (paddingLoaded pad) 0 pad := by
  unfold paddingLoaded
  split
  · rename_i h
    show pad = _
    rw [List.all_eq_true] at h
    refine List.eq_replicate_iff.2 ⟨rfl, fun b hb => ?_⟩
    simpa using h b hb
  · rfl

theorem wmvRebuild_ok {w : WmvFile} (h : w.Ok) (hl : w.Lucky) {f : Bytes} {ds : List Bytes} {tracks : Tracks} {files : TrackFiles}
    (hs : (wmvSrsBytes w ((ownObjects f ds (paddingOf w.packets)).flatMap WmvObject.bytes)).length < 2 ^ 63)
    (hdata : HasStreams tracks files w.pieces) :
    wmvRebuild (wmvSrsBytes w ((ownObjects f ds (paddingOf w.packets)).flatMap WmvObject.bytes)) (paddingLoaded (paddingOf w.packets)) tracks files =
      .ok (w.bytes, crc32 w.bytes 0) := by
  generalize hfile : wmvSrsBytes w ((ownObjects f ds (paddingOf w.packets)).flatMap WmvObject.bytes) = file at hs ⊢
  generalize hpad : paddingLoaded (paddingOf w.packets) = pad
  have e1 : file = [] ++ (asfBytes w.before ++ (w.dataHead ++ (w.packets.flatMap WmvPacket.stripped ++
      ((ownObjects f ds (paddingOf w.packets)).flatMap WmvObject.bytes ++ asfBytes w.after)))) := by rw [← hfile]; rfl
  obtain ⟨f1, s1, h1, h2, o1, c1, t1, p1⟩ := rebuild_tops (tracks := tracks) (pad := pad) (file.length + 1) ⟨[], 0, files, 0⟩ h.before e1 (by simp)
  have hdl := dataHead_length h
  have hlen := congrArg List.length e1
  simp only [List.length_append, List.length_nil, Nat.zero_add, hdl] at hlen
  rw [List.nil_append] at h1 h2 e1
  obtain ⟨g, rfl⟩ : ∃ g, f1 = g + 1 := by
    cases f1 with
    | zero => omega
    | succ g => exact ⟨g, rfl⟩
  have hpsz : w.psize < 2 ^ 63 := by
    have h1 := data_size h
    have h2 := packets_pos h
    have : 1 * w.psize ≤ w.packets.length * w.psize := Nat.mul_le_mul_right _ h2
    omega
  obtain ⟨s2, d, e, k1, k2, k3, k4⟩ := rebuild_packets (tracks := tracks) (pad := pad) hs hpsz (qs := []) (ps := w.packets)
    (pre := asfBytes w.before ++ w.dataHead)
    (post := (ownObjects f ds (paddingOf w.packets)).flatMap WmvObject.bytes ++ asfBytes w.after) (s := s1.write w.dataHead)
    (q := (asfBytes w.before).length + 50) h.packets h.some hl (by rw [e1]; simp)
    (by rw [List.append_nil]; show HasStreams tracks s1.files _; rw [t1]; exact hdata)
    (by show PaddingFrom pad s1.padding _; rw [p1, ← hpad]; exact paddingFrom_loaded _)
  have h3 : wmvRebuildObjects file tracks pad (g + 1) (asfBytes w.before).length s1 =
      wmvRebuildObjects file tracks pad g (asfBytes w.before ++ (w.dataHead ++ w.packets.flatMap WmvPacket.stripped)).length s2 := by
    rw [wmvRebuildObjects, asfRead_srs_data h e1]
    simp only [ok_bind]
    rw [if_neg (by simp [dataSrsObj]; decide), if_pos (by simp [dataSrsObj]; decide),
      show (dataSrsObj (asfBytes w.before).length w).osize = 50 + w.packets.length * w.psize from rfl,
      show (dataSrsObj (asfBytes w.before).length w).raw = w.dataHead from rfl, asfPackets_data h]
    simp only [ok_bind, hdl]
    have hfin : (dataSrsObj (asfBytes w.before).length w).start + (dataSrsObj (asfBytes w.before).length w).size =
        (asfBytes w.before ++ w.dataHead ++ w.packets.flatMap WmvPacket.stripped).length := by
      simp only [dataSrsObj, List.length_append, hdl]
      omega
    rw [hfin]
    have k1' : (asfBytes w.before ++ w.dataHead).length = (asfBytes w.before).length + 50 := by rw [List.length_append, hdl]
    rw [k1'] at k1
    rw [k1]
    simp only [ok_bind]
    cases d with
    | true =>
      rw [if_pos rfl, k2 rfl]
      simp
    | false =>
      rw [if_neg (by simp), data_srs_skip h e1 hs]
      rfl
  obtain ⟨f2, h4, h5⟩ := rebuild_own_objects (tracks := tracks) (pad := pad) hs (os := ownObjects f ds (paddingOf w.packets))
    (pre := asfBytes w.before ++ (w.dataHead ++ w.packets.flatMap WmvPacket.stripped)) (post := asfBytes w.after) g s2 (by
      intro o ho
      unfold ownObjects at ho
      rcases List.mem_cons.1 ho with rfl | ho
      · exact Or.inl rfl
      · rcases List.mem_append.1 ho with ho | ho
        · obtain ⟨d, _, rfl⟩ := List.mem_map.1 ho
          exact Or.inr (Or.inl rfl)
        · split at ho
          · simp at ho
          · simp only [List.mem_singleton] at ho
            subst ho
            exact Or.inr (Or.inr rfl)) (by rw [e1]; simp) (by simp only [List.length_append, hdl]; omega)
  obtain ⟨f3, s3, h6, h7, o3, c3, _, _⟩ := rebuild_tops (tracks := tracks) (pad := pad) f2 s2 (ts := w.after) (post := []) h.after
    (by rw [e1]; simp) h4
  have e : asfBytes w.before ++ (w.dataHead ++ w.packets.flatMap WmvPacket.stripped) ++
      (ownObjects f ds (paddingOf w.packets)).flatMap WmvObject.bytes ++ asfBytes w.after = file := by rw [e1]; simp
  rw [e] at h6 h7
  obtain ⟨k, rfl⟩ : ∃ k, f3 = k + 1 := by
    cases f3 with
    | zero => omega
    | succ k => exact ⟨k, rfl⟩
  unfold wmvRebuild
  rw [List.length_nil] at h2
  rw [h2, h3, h5, h7, wmvRebuildObjects, asfRead_end _ _ (by omega)]
  simp only [ok_bind, pure_eq_ok]
  rw [o3, k3, c3, k4]
  simp only [WmvRebuild.write, o1, c1]
  congr 2
  · simp [WmvFile.bytes]
  · simp only [WmvFile.bytes, crc32_append]

end Rescene
