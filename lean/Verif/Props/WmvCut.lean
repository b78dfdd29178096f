import Verif.Lemmas.WmvExtract
import Verif.Props.Wmv
import Verif.Props.WmvEnds
/-
C68: a sample that was cut out of a WMV movie is rebuilt from that movie.
-/
namespace Rescene.Props
open Rescene Spec

theorem startAt_of_cut {sample movie : WmvFile} (hcut : WmvCutFrom sample movie) {n : Nat} (hn : streamData sample.pieces n ≠ []) :
    ∃ A q p k B, StartAt sample.pieces (wmvPlaces movie) n A q p k B := by
  obtain ⟨a, p, k, b, he, hs⟩ := hcut.starts n hn
  have hm : (wmvPlaces movie).map (·.2) = a ++ p :: b := (wmvPlaces_pieces movie).trans he
  obtain ⟨A, C, hAC, hA, hC⟩ := List.map_eq_append_iff.1 hm
  obtain ⟨x, B, hB, hx, hBm⟩ := List.map_eq_cons_iff.1 hC
  obtain ⟨q, p'⟩ := x
  dsimp only at hx
  subst hx hB hA hBm
  exact ⟨A, q, _, k, B, hn, hAC, hs⟩

/-- What the tracks must be at the start of the search. -/
structure FreshTracks (sample : WmvFile) (ts : Tracks) : Prop where
  distinct : ts.Pairwise (fun a b => a.1 ≠ b.1)
  data : ∀ n, streamData sample.pieces n ≠ [] → n ∈ trackKeys ts ∧ (ts.getNew n).sig = (streamData sample.pieces n).take 256 ∧
    (ts.getNew n).dataLength = (streamData sample.pieces n).length ∧ (ts.getNew n).checkBytes = [] ∧ (ts.getNew n).matchLength = 0
  empty : ∀ n, streamData sample.pieces n = [] → (ts.getNew n).sig = []

theorem find_cut {sample movie : WmvFile} (hcut : WmvCutFrom sample movie) {ts : Tracks} (h : FreshTracks sample ts) :
    ∃ ts1, wmvFind ts movie.bytes = .ok ts1 ∧ WmvLocated sample.pieces (wmvPlaces movie) ts ts1 := by
  refine wmvFind_ok hcut.ok ?_ (fun n hn => (h.data n hn).1) (fun n hn => startAt_of_cut hcut hn) ?_
  · intro x hx
    refine hcut.streams x.2 ?_
    rw [← wmvPlaces_pieces]
    exact List.mem_map.2 ⟨x, hx, rfl⟩
  · refine ⟨h.distinct, rfl, fun _ _ => rfl, fun h0 => h0, ?_, fun _ B' hB => by simp at hB⟩
    intro n A q p k B hst A' _
    obtain ⟨_, h1, h2, h3, h4⟩ := h.data n hst.used
    have hs := List.length_pos_iff.2 (sig_ne hst.used)
    exact ⟨h1, h2, by rw [h3]; simp, by rw [h3]; simp, by rw [h3]; simpa using hs, by omega⟩

theorem located_not_missing {sample movie : WmvFile} (hcut : WmvCutFrom sample movie) {ts ts1 : Tracks} (h : FreshTracks sample ts)
    (hloc : WmvLocated sample.pieces (wmvPlaces movie) ts ts1) : videoUnlocated ts1 = false := by
  unfold videoUnlocated
  rw [List.any_eq_false]
  intro x hx
  have hg := getNew_of_mem hloc.distinct hx
  by_cases hd : streamData sample.pieces x.1 = []
  · have := h.empty x.1 hd
    rw [← hloc.other x.1 hd, hg] at this
    dsimp only at this
    simp [this]
  · obtain ⟨A, q, p, k, B, hst⟩ := startAt_of_cut hcut hd
    have h1 := (hloc.place hst).2.2
    have h2 := hst.place_pos (wmvPlaces_pos hcut.ok)
    rw [hg] at h1
    dsimp only at h1
    have : x.2.matchOffset ≠ 0 := by omega
    simp [this]

/-- From what was loaded to the sample: the tracks are searched for, or their places are known. -/
theorem wmv_loaded_rebuilt {sample movie : WmvFile} {srs : Bytes} {ig : Bool} {f : FileData} {padding : Option Bytes} {ts : Tracks}
    (hcut : WmvCutFrom sample movie) (hload : wmvLoadSrs srs = .ok (f, padding, ts)) (hf : f.crc = (crc32 sample.bytes 0).toNat)
    (hfresh : FreshTracks sample ts)
    (hknown : ts.any (fun t => t.2.matchOffset == 0) = false → WmvLocated sample.pieces (wmvPlaces movie) ts ts)
    (hreb : ∀ (ts : Tracks) (files : TrackFiles),
      (∀ n, (∃ p ∈ sample.pieces, p.stream = n) → (∃ t, (n, t) ∈ ts) ∧ ∃ rest, files n = some (streamData sample.pieces n ++ rest)) →
      wmvRebuild srs padding ts files = .ok (sample.bytes, crc32 sample.bytes 0)) :
    srsWmvReconstruct srs movie.bytes ig = .ok ⟨sample.bytes, f.size, f.crc, true⟩ := by
  -- the search
  obtain ⟨ts1, hfound, hloc⟩ : ∃ ts1, (if ig = true ∨ ts.any (fun t => t.2.matchOffset == 0) = true then do
      let tr ← wmvFind ts movie.bytes
      if videoUnlocated tr then throw .other
      else return tr
    else .ok ts : Res Tracks) = .ok ts1 ∧ WmvLocated sample.pieces (wmvPlaces movie) ts ts1 := by
    by_cases hc : ig = true ∨ ts.any (fun t => t.2.matchOffset == 0) = true
    · obtain ⟨ts1, h1, h2⟩ := find_cut hcut hfresh
      refine ⟨ts1, ?_, h2⟩
      rw [if_pos hc, h1]
      simp only [ok_bind, located_not_missing hcut hfresh h2, Bool.false_eq_true, if_false, pure_eq_ok]
    · rw [if_neg hc]
      refine ⟨ts, rfl, hknown ?_⟩
      cases ha : ts.any (fun t => t.2.matchOffset == 0) with
      | false => rfl
      | true => exact absurd (Or.inr ha) hc
  obtain ⟨files, hext, hfiles⟩ := wmvExtract_ok hcut.ok (fun n hn => (hfresh.data n hn).1) (fun x hx => hcut.streams x.2 (by
    rw [← wmvPlaces_pieces]
    exact List.mem_map.2 ⟨x, hx, rfl⟩)) (fun n hn => startAt_of_cut hcut hn) hloc
  have hr : wmvRebuild srs padding ts1 files = .ok (sample.bytes, crc32 sample.bytes 0) := by
    refine hreb ts1 files ?_
    rintro n ⟨p, hp, rfl⟩
    have hu := hcut.used p hp
    constructor
    · have hm : p.stream ∈ trackKeys ts1 := by rw [hloc.keys]; exact (hfresh.data _ hu).1
      obtain ⟨x, hx, he⟩ := List.mem_map.1 hm
      exact ⟨x.2, he ▸ hx⟩
    · obtain ⟨f, hf, rest, he⟩ := hfiles _ hu
      exact ⟨rest, by rw [hf, he]⟩
  unfold srsWmvReconstruct
  rw [hload]
  simp only [ok_bind]
  rw [hfound]
  simp only [ok_bind]
  rw [hext]
  simp only [ok_bind]
  rw [if_neg, hr]
  · simp [hf]
  · intro hh
    obtain ⟨x, hx, hxx⟩ := List.any_eq_true.1 hh
    have hg := getNew_of_mem hloc.distinct hx
    by_cases hd : streamData sample.pieces x.1 = []
    · have := hfresh.empty x.1 hd
      rw [← hloc.other x.1 hd, hg] at this
      dsimp only at this
      simp [this] at hxx
    · obtain ⟨A, q, p, k, B, hst⟩ := startAt_of_cut hcut hd
      have h1 := (hloc.place hst).2.1
      rw [hg] at h1
      dsimp only at h1
      obtain ⟨b, hb, hpre⟩ := hfiles _ hd
      have := hpre.length_le
      rw [hb] at hxx
      simp [h1] at hxx
      omega

theorem streamData_stream {ps : List WmvPiece} {n : Nat} (h : streamData ps n ≠ []) : ∃ p ∈ ps, p.stream = n := by
  apply Classical.byContradiction
  intro hh
  exact h (streamData_none fun p hp e => hh ⟨p, hp, e⟩)

/-- C68: for every WMV sample and every movie, of any size, with any number of streams, packets and
payloads: when the sample was cut out of the movie (`WmvCutFrom`: for each stream there is a place in the
movie, which may be in the middle of a payload and another one for each stream, from which on the movie
has the data of the sample, however it is cut into payloads and packets, and which is the first that
looks like it), then rebuilding from the SRS of the sample and the movie gives the sample, byte for
byte, and says so. -/
theorem wmv_cut_rebuilt_partial {app name : Str} {sample movie : WmvFile} {big ig : Bool} {srs : Bytes} (hw : sample.Ok) (hl : sample.Lucky)
    (hs : srs.length < 2 ^ 63) (h : srsWmvCreate app name sample.bytes big none = .ok srs) (hcut : WmvCutFrom sample movie) :
    srsWmvReconstruct srs movie.bytes ig = .ok ⟨sample.bytes, sample.bytes.length, (crc32 sample.bytes 0).toNat, true⟩ := by
  obtain ⟨padding, ts, hload, hdist, hts, hreb⟩ := wmv_strip_rebuild_partial hw hs h
  have hget : ∀ {n}, n ∈ trackKeys ts → ts.getNew n =
      { flags := if big then 4 else 0, number := n, dataLength := (streamData sample.pieces n).length, matchOffset := 0,
        sig := (streamData sample.pieces n).take 256 } := by
    intro n hn
    obtain ⟨x, hx, rfl⟩ := List.mem_map.1 hn
    rw [getNew_of_mem hdist hx, ((hts x.1 x.2).1 hx).2]
  have hkey : ∀ n, streamData sample.pieces n ≠ [] → n ∈ trackKeys ts := by
    intro n hn
    exact List.mem_map.2 ⟨_, (hts n _).2 ⟨.inr (streamData_stream hn), rfl⟩, rfl⟩
  refine wmv_loaded_rebuilt hcut hload rfl ⟨hdist, ?_, ?_⟩ ?_ (fun ts files hh => hreb ts files hl hh)
  · intro n hn
    rw [hget (hkey n hn)]
    exact ⟨hkey n hn, rfl, rfl, rfl, rfl⟩
  · intro n hn
    by_cases hk : n ∈ trackKeys ts
    · rw [hget hk, hn]; rfl
    · rw [getNew_not_mem hk]
  · -- no place is known
    intro hany
    obtain ⟨p, hp⟩ := List.exists_mem_of_ne_nil _ hcut.some
    have hm := (hts p.stream _).2 ⟨.inr ⟨p, hp, rfl⟩, rfl⟩
    have := List.any_eq_false.1 hany _ hm
    simp at this

/-- C68, for an SRS that was made with the movie at hand (`-c`): the places of the streams are in it. -/
theorem wmv_checked_rebuilt_partial {app name : Str} {sample movie : WmvFile} {big ig : Bool} {srs : Bytes} (hw : sample.Ok) (hl : sample.Lucky)
    (hs : srs.length < 2 ^ 63) (hcut : WmvCutFrom sample movie)
    (h : srsWmvCreate app name sample.bytes big (some movie.bytes) = .ok srs) :
    srsWmvReconstruct srs movie.bytes ig = .ok ⟨sample.bytes, sample.bytes.length, (crc32 sample.bytes 0).toNat, true⟩ := by
  unfold srsWmvCreate at h
  split at h
  · simp at h
  · simp only [bind_eq_ok] at h
    obtain ⟨⟨crc, tracks, pad⟩, hprof, h⟩ := h
    obtain ⟨rfl, hts, rfl⟩ := wmvProfile_ok hw hprof
    have hget0 : ∀ {n}, n ∈ trackKeys tracks → tracks.getNew n = trackOf (streamData sample.pieces n) n := by
      intro n hn
      obtain ⟨x, hx, rfl⟩ := List.mem_map.1 hn
      rw [getNew_of_mem hts.distinct hx, hts.data x.1 x.2 hx]
      rfl
    have hkey0 : ∀ n, streamData sample.pieces n ≠ [] → n ∈ trackKeys tracks := fun n hn => (hts.keys n).2 (.inr (streamData_stream hn))
    have hfresh0 : FreshTracks sample tracks := by
      refine ⟨hts.distinct, ?_, ?_⟩
      · intro n hn
        rw [hget0 (hkey0 n hn)]
        exact ⟨hkey0 n hn, rfl, rfl, rfl, rfl⟩
      · intro n hn
        by_cases hk : n ∈ trackKeys tracks
        · rw [hget0 hk, hn]; rfl
        · rw [getNew_not_mem hk]
    obtain ⟨ts1, hfind, hloc⟩ := find_cut hcut hfresh0
    dsimp only at h
    split at h
    · simp at h
    · rw [hfind] at h
      simp only [ok_bind, located_not_missing hcut hfresh0 hloc, Bool.false_eq_true, if_false, pure_eq_ok] at h
      have hplain := hloc.plain fun x hx => ⟨(wmvTracks_small hts x hx).1, (wmvTracks_small hts x hx).2.2⟩
      have hsmall : ∀ n ∈ trackKeys tracks, n < 2 ^ 16 := by
        intro n hn
        obtain ⟨x, hx, rfl⟩ := List.mem_map.1 hn
        obtain ⟨h1, h2, _⟩ := wmvTracks_small hts x hx
        omega
      have hsub : ∀ x ∈ ts1.filter (fun t => t.2.sig ≠ []), x ∈ ts1 := fun x hx => (List.mem_filter.1 hx).1
      have hd1 : (ts1.filter (fun t => t.2.sig ≠ [])).Pairwise (fun a b => a.1 ≠ b.1) := hloc.distinct.sublist List.filter_sublist
      obtain ⟨h1, h2⟩ := wmv_srs_rebuilds hw (fun x hx => by
        obtain ⟨e1, e2⟩ := hplain x (hsub x hx)
        have : x.1 ∈ trackKeys tracks := by
          rw [← hloc.keys]
          exact List.mem_map.2 ⟨x, hsub x hx, rfl⟩
        have := hsmall _ this
        exact ⟨e1, by omega, e2⟩) hd1 h hs
      rw [Nat.mod_eq_of_lt (BitVec.isLt _)] at h1
      obtain ⟨ts2, hts2⟩ : ∃ ts2 : Tracks, (ts1.filter (fun t => t.2.sig ≠ [])).map (fun p => (p.1, readTrack big p.2)) = ts2 := ⟨_, rfl⟩
      rw [hts2] at h1
      have hdist2 : ts2.Pairwise (fun a b => a.1 ≠ b.1) := by
        rw [← hts2]
        exact List.pairwise_map.2 hd1
      have hmem2 : ∀ y ∈ ts2, ∃ x ∈ ts1, x.2.sig ≠ [] ∧ y = (x.1, readTrack big x.2) := by
        intro y hy
        rw [← hts2] at hy
        obtain ⟨x, hx, rfl⟩ := List.mem_map.1 hy
        have := (List.mem_filter.1 hx).2
        exact ⟨x, hsub x hx, by simpa using this, rfl⟩
      -- exactly the streams with data are there
      have hdat2 : ∀ n A q p k B, StartAt sample.pieces (wmvPlaces movie) n A q p k B → n ∈ trackKeys ts2 ∧
          (ts2.getNew n).sig = (streamData sample.pieces n).take 256 ∧ (ts2.getNew n).dataLength = (streamData sample.pieces n).length ∧
          (ts2.getNew n).checkBytes = [] ∧ (ts2.getNew n).matchLength = 0 ∧ (ts2.getNew n).matchOffset = ((q + k : Nat) : Int) := by
        intro n A q p k B hst
        obtain ⟨e1, e2, e3⟩ := hloc.place hst
        have hm : n ∈ trackKeys ts1 := by rw [hloc.keys]; exact hkey0 n hst.used
        obtain ⟨x, hx, rfl⟩ := List.mem_map.1 hm
        rw [getNew_of_mem hloc.distinct hx] at e1 e2 e3
        dsimp only at e1 e2 e3
        have hne : x.2.sig ≠ [] := by rw [e1]; exact sig_ne hst.used
        have hx2 : (x.1, readTrack big x.2) ∈ ts2 := by
          rw [← hts2]
          exact List.mem_map.2 ⟨x, List.mem_filter.2 ⟨hx, by simpa using hne⟩, rfl⟩
        have hg := getNew_of_mem hdist2 hx2
        refine ⟨List.mem_map.2 ⟨_, hx2, rfl⟩, ?_⟩
        dsimp only at hg
        rw [hg]
        exact ⟨e1, e2, rfl, rfl, e3⟩
      have hempty2 : ∀ n, streamData sample.pieces n = [] → n ∉ trackKeys ts2 := by
        intro n hn hk
        obtain ⟨y, hy, rfl⟩ := List.mem_map.1 hk
        obtain ⟨x, hx, hsig, rfl⟩ := hmem2 y hy
        dsimp only at hn
        have e := hloc.other x.1 hn
        rw [getNew_of_mem hloc.distinct hx] at e
        have e' := congrArg TrackData.sig e
        rw [hfresh0.empty _ hn] at e'
        exact hsig e'
      refine wmv_loaded_rebuilt hcut h1 rfl ⟨hdist2, ?_, ?_⟩ ?_ ?_
      · intro n hn
        obtain ⟨A, q, p, k, B, hst⟩ := startAt_of_cut hcut hn
        obtain ⟨e0, e1, e2, e3, e4, _⟩ := hdat2 n A q p k B hst
        exact ⟨e0, e1, e2, e3, e4⟩
      · intro n hn
        rw [getNew_not_mem (hempty2 n hn)]
      · intro _
        refine ⟨hdist2, rfl, fun _ _ => rfl, fun h0 => h0, fun {n A q p k B} hst => ?_⟩
        obtain ⟨_, e1, e2, _, _, e3⟩ := hdat2 n A q p k B hst
        exact ⟨e1, e2, e3⟩
      · intro ts files hh
        refine h2 ts files hl fun n hn => ?_
        obtain ⟨⟨t, ht⟩, hr⟩ := hh n hn
        exact ⟨List.mem_map.2 ⟨_, ht, rfl⟩, hr⟩

/-- The first data of a stream. -/
theorem streamData_first {ps : List WmvPiece} {n : Nat} (h : streamData ps n ≠ []) :
    ∃ a p b, ps = a ++ p :: b ∧ p.stream = n ∧ p.data ≠ [] ∧ streamData a n = [] := by
  induction ps with
  | nil => exact absurd rfl h
  | cons p ps ih =>
    by_cases hp : p.stream = n ∧ p.data ≠ []
    · exact ⟨[], p, ps, rfl, hp.1, hp.2, rfl⟩
    · have hnil : (if p.stream = n then p.data else []) = [] := by
        split
        · rename_i he
          exact Classical.byContradiction fun hd => hp ⟨he, hd⟩
        · rfl
      rw [streamData_cons, hnil, List.nil_append] at h
      obtain ⟨a, q, b, he, h1, h2, h3⟩ := ih h
      refine ⟨p :: a, q, b, by rw [he]; rfl, h1, h2, ?_⟩
      rw [streamData_cons, hnil, h3]
      rfl

/-- A sample whose streams all have data was cut out of itself. -/
theorem wmv_cut_from_itself {sample : WmvFile} (hw : sample.Ok) (hdata : ∀ p ∈ sample.pieces, streamData sample.pieces p.stream ≠ [])
    (hsome : sample.pieces ≠ []) : WmvCutFrom sample sample := by
  refine ⟨hw, hdata, hdata, hsome, fun n hn => ?_⟩
  obtain ⟨a, p, b, he, h1, h2, h3⟩ := streamData_first hn
  refine ⟨a, p, 0, b, he, h1, List.length_pos_iff.2 h2, ?_, ?_⟩
  · rw [he, streamData_append, streamData_cons, h3, if_pos h1]
    simp
  · intro i hi
    rw [h3] at hi
    simp at hi

/-- Every sample whose streams all have data is rebuilt from itself. -/
theorem wmv_self_rebuilt {app name : Str} {sample : WmvFile} {big ig : Bool} {srs : Bytes} (hw : sample.Ok) (hl : sample.Lucky)
    (hs : srs.length < 2 ^ 63) (h : srsWmvCreate app name sample.bytes big none = .ok srs)
    (hdata : ∀ p ∈ sample.pieces, streamData sample.pieces p.stream ≠ []) (hsome : sample.pieces ≠ []) :
    srsWmvReconstruct srs sample.bytes ig = .ok ⟨sample.bytes, sample.bytes.length, (crc32 sample.bytes 0).toNat, true⟩ :=
  wmv_cut_rebuilt_partial hw hl hs h (wmv_cut_from_itself hw hdata hsome)

/-- The result is the right one whenever it is said to be: its CRC is that of the sample. -/
theorem wmv_result_sound {srs main : Bytes} {ig : Bool} {r : SrsResult} (h : srsWmvReconstruct srs main ig = .ok r) :
    r.good = true ↔ (crc32 r.file 0).toNat = r.crc := by
  unfold srsWmvReconstruct at h
  simp only [bind_eq_ok] at h
  obtain ⟨⟨f, padding, t0⟩, _, t1, _, ⟨t2, fs⟩, _, h⟩ := h
  dsimp only at h
  split at h
  · simp at h
  · simp only [bind_eq_ok, pure_eq_ok, Except.ok.injEq] at h
    obtain ⟨⟨out, crc⟩, hr, h⟩ := h
    rw [← h]
    dsimp only
    rw [wmv_reported_crc hr]
    simp

end Rescene.Props
