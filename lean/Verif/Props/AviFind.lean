import Verif.Lemmas.AviFind
import Verif.Props.Riff
/-
C62: a sample that was cut out of an AVI movie is rebuilt from that movie.
-/
namespace Rescene.Props
open Rescene Spec

theorem find_step_eq (file : Bytes) : (fun ts it => if it.chunk.kind = .movi then aviFindMovi file ts it else .ok (ts, true)) =
    findStep file := rfl

/-- The tracks of a sample and its movie. -/
def tracksIn (sample : List AviPart) (movie : Movie) (n : Nat) : Prop := ∃ p ∈ sample ++ Movie.parts movie, p.track = some n

/-- The search from tracks that are as in the sample. -/
theorem avi_find_located {sample : List AviPart} {movie : Movie} {ts : Tracks} (hcut : CutFrom sample movie)
    (hinv : FindInv sample movie (tracksIn sample movie) [] ts) :
    ∃ ts1, aviFind ts (aviBytes movie.parts) = .ok ts1 ∧ Located sample movie (tracksIn sample movie) ts1 ∧ videoUnlocated ts1 = false ∧
      ∃ its, aviFind ts (aviBytes movie.parts) = foldGo (findStep (aviBytes movie.parts)) ts its := by
  have hKm : ∀ p ∈ movie, ∀ n, p.1.track = some n → tracksIn sample movie n := by
    intro p hpm n ht
    exact ⟨p.1, List.mem_append.2 (Or.inr (List.mem_map.2 ⟨p, hpm, rfl⟩)), ht⟩
  obtain ⟨ts1, hfind, hloc⟩ := find_fold (file := aviBytes (Movie.parts movie)) (rest := movie) hcut rfl hKm hinv
  have hok : ∀ p ∈ Movie.parts movie, p.Ok := by
    intro p hpm
    obtain ⟨x, hx, rfl⟩ := List.mem_map.1 hpm
    exact hcut.ok x hx
  have hfold : aviFind ts (aviBytes (Movie.parts movie)) = foldGo (findStep (aviBytes (Movie.parts movie))) ts (itemsAt .avi (0 + (aviBytes (Movie.parts [])).length) movie.parts) := by
    unfold aviFind
    have e := storedBytes_of_ne_srs (mode := .avi) (by decide) (Movie.parts movie)
    rw [find_step_eq]
    have := riffWalk_parts (mode := .avi) (enter := fun _ => true) (peek := true)
      (f := findStep (aviBytes (Movie.parts movie))) (s := ts)
      hok (enters_all _ _) (fitsFrom_of_ne (by decide) _ _ _)
    rw [e] at this
    rw [this]
    rfl
  have hun : videoUnlocated ts1 = false := by
    unfold videoUnlocated
    rw [List.any_eq_false]
    intro x hx
    have ho := hloc.off x.1
    have hs := hloc.sig x.1
    rw [getNew_of_mem hloc.distinct hx] at ho hs
    dsimp only at ho hs
    by_cases hd : trackBytes sample x.1 = []
    · rw [hs, hd]; simp
    · rw [if_neg hd] at ho
      have := placeOf_ge (hcut.place hd) 0
      have hne : x.2.matchOffset ≠ 0 := by omega
      simp [hne]
  exact ⟨ts1, hfold.trans hfind, hloc, hun, _, hfold⟩

/-- What is loaded from the SRS leads to the sample, whether the places are known or not. -/
theorem avi_loaded_rebuilt {app name : Str} {sample : List AviPart} {a b : Movie} {ig : Bool} {srs : Bytes} {ts : Tracks}
    (hload : aviLoadSrs srs = .ok (⟨3, app, name, (aviBytes sample).length, (crc32 (aviBytes sample) 0).toNat⟩, ts))
    (hreb : ∀ (ts : Tracks) (files : TrackFiles), (∀ t ∈ ts, files t.1 ≠ none) →
      (∀ n, (∃ p ∈ sample, p.track = some n) →
        (∃ t, (n, t) ∈ ts) ∧ ∃ rest, files n = some (trackBytes sample n ++ rest)) →
      aviRebuild srs ts files = .ok (aviBytes sample, crc32 (aviBytes sample) 0))
    (hcut : CutFrom sample (a ++ b)) (hread : ReadFrom sample a b)
    (hinv : FindInv sample (a ++ b) (tracksIn sample (a ++ b)) [] ts)
    (hknown : ¬ (ig = true ∨ ts.any (fun t => t.2.matchOffset == 0) = true) → Located sample (a ++ b) (tracksIn sample (a ++ b)) ts)
    (hlen : (aviBytes (Movie.parts (a ++ b))).length < 2 ^ 63)
    {n0 : Nat} (hn0 : trackBytes sample n0 ≠ [])
    (hmin : ∀ n, trackBytes sample n ≠ [] → placeOf 0 (a ++ b) n0 ≤ placeOf 0 (a ++ b) n)
    (hstart : riffStart (aviBytes (Movie.parts (a ++ b))) (placeOf 0 (a ++ b) n0) = .ok (aviBytes (Movie.parts a)).length) :
    srsAviReconstruct srs (aviBytes (Movie.parts (a ++ b))) ig =
      .ok ⟨aviBytes sample, (aviBytes sample).length, (crc32 (aviBytes sample) 0).toNat, true⟩ := by
  have hKseen : ∀ n, tracksIn sample (a ++ b) n → ∃ p ∈ b, p.1.track = some n := by
    intro n hn
    obtain ⟨p, hpm, ht⟩ := hn
    rw [show Movie.parts (a ++ b) = Movie.parts a ++ Movie.parts b by simp [Movie.parts]] at hpm
    simp only [List.mem_append] at hpm
    rcases hpm with hpm | hpm | hpm
    · exact hread.seen n ⟨p, by simp [hpm], ht⟩
    · exact hread.seen n ⟨p, by simp [hpm], ht⟩
    · obtain ⟨x, hx, rfl⟩ := List.mem_map.1 hpm
      exact ⟨x, hx, ht⟩
  have hKm : ∀ p ∈ a ++ b, ∀ n, p.1.track = some n → tracksIn sample (a ++ b) n := by
    intro p hpm n ht
    exact ⟨p.1, List.mem_append.2 (Or.inr (List.mem_map.2 ⟨p, hpm, rfl⟩)), ht⟩
  have hsel : ∃ ts1, (if ig = true ∨ ts.any (fun t => t.2.matchOffset == 0) = true then do
      let tr ← aviFind ts (aviBytes (Movie.parts (a ++ b)))
      if videoUnlocated tr then throw .other
      else return tr
    else .ok ts : Res Tracks) = .ok ts1 ∧ Located sample (a ++ b) (tracksIn sample (a ++ b)) ts1 := by
    by_cases hc : ig = true ∨ ts.any (fun t => t.2.matchOffset == 0) = true
    · obtain ⟨ts1, hfind, hloc, hun, _⟩ := avi_find_located hcut hinv
      refine ⟨ts1, ?_, hloc⟩
      rw [if_pos hc, hfind]
      simp only [ok_bind, hun, Bool.false_eq_true, if_false, pure_eq_ok]
    · exact ⟨ts, by rw [if_neg hc], hknown hc⟩
  obtain ⟨ts1, hts1, hloc⟩ := hsel
  obtain ⟨⟨ts2, fs⟩, hext, hres⟩ := aviExtract_ok rfl hcut hread.before
    (fun p hpm => hKm p (by simp [hpm])) hKseen hloc hlen hn0 hmin hstart
  have hrebuilt : aviRebuild srs ts2 fs = .ok (aviBytes sample, crc32 (aviBytes sample) 0) := by
    refine hreb ts2 fs ?_ ?_
    · intro t htm
      obtain ⟨r, hr⟩ := hres.data t.1 (List.mem_map.2 ⟨t, htm, rfl⟩)
      dsimp only at hr
      rw [hr]
      simp
    · intro n hn
      have hk := hres.sup n hn
      obtain ⟨x, hx, rfl⟩ := List.mem_map.1 hk
      exact ⟨⟨x.2, hx⟩, hres.data x.1 hk⟩
  unfold srsAviReconstruct
  rw [hload]
  simp only [ok_bind]
  rw [hts1]
  simp only [ok_bind, hext]
  rw [if_neg ?_, hrebuilt]
  · simp
  · intro hh
    obtain ⟨x, hx, hxx⟩ := List.any_eq_true.1 hh
    obtain ⟨r, hr⟩ := hres.data x.1 (List.mem_map.2 ⟨x, hx, rfl⟩)
    dsimp only at hr
    have hl := hres.len x.1
    rw [getNew_of_mem hres.distinct hx] at hl
    dsimp only at hl
    rw [hr] at hxx
    simp [hl] at hxx
    omega

/-- Before the search the tracks are as in the sample. -/
theorem findInv_start {sample : List AviPart} {movie : Movie} {ts : Tracks} (hdist : ts.Pairwise (fun a b => a.1 ≠ b.1))
    (hkeys : ∀ n, n ∈ trackKeys ts ↔ ∃ p ∈ sample, p.track = some n)
    (hget : ∀ n ∈ trackKeys ts, ((ts.getNew n).sig = (trackBytes sample n).take 256 ∧ (ts.getNew n).dataLength = (trackBytes sample n).length) ∧
      (trackBytes sample n = [] → (ts.getNew n).matchOffset = 0) ∧ (ts.getNew n).matchLength = 0 ∧ (ts.getNew n).checkBytes = []) :
    FindInv sample movie (tracksIn sample movie) [] ts := by
  have hg : ∀ n, ((ts.getNew n).sig = (trackBytes sample n).take 256 ∧ (ts.getNew n).dataLength = (trackBytes sample n).length) ∧
      (trackBytes sample n = [] → (ts.getNew n).matchOffset = 0) ∧ (ts.getNew n).matchLength = 0 ∧ (ts.getNew n).checkBytes = [] := by
    intro n
    by_cases hn : n ∈ trackKeys ts
    · exact hget n hn
    · have hb : trackBytes sample n = [] := trackBytes_none fun p hpm ht => hn ((hkeys n).2 ⟨p, hpm, ht⟩)
      rw [getNew_not_mem hn, hb]
      exact ⟨⟨rfl, rfl⟩, fun _ => rfl, rfl, rfl⟩
  refine ⟨hdist, fun n hn => ?_, fun n hn => (hkeys n).2 hn, fun n => (hg n).1.1, fun n => (hg n).1.2,
      fun n _ => (hg n).2, fun n _ hh => absurd rfl hh⟩
  obtain ⟨p, hpm, ht⟩ := (hkeys n).1 hn
  exact ⟨p, List.mem_append.2 (Or.inl hpm), ht⟩

/-- C62, the general form: for every sample and every movie, of any size and with any number of tracks
and chunks: when the sample was cut out of the movie (`CutFrom`: from some place on, which may be in
the middle of a chunk and another one for each track, its tracks go on with the data they have in the
sample, however it is cut into chunks, and its start is not found before), and the reader that is told
the place of the first track starts reading at a part of the movie from which on all is found, then
rebuilding from the SRS of the sample and the movie gives the sample, byte for byte, and says so.
What the SRS says about the place of the tracks does not matter. -/
theorem avi_cut_rebuilt_from_partial {app name : Str} {sample : List AviPart} {a b : Movie} {big ig : Bool} {srs : Bytes}
    (hp : PlainAvi sample) (h : srsAviCreate app name (aviBytes sample) big none = .ok srs)
    (hcut : CutFrom sample (a ++ b)) (hread : ReadFrom sample a b)
    (hlen : (aviBytes (Movie.parts (a ++ b))).length < 2 ^ 63)
    {n0 : Nat} (hn0 : trackBytes sample n0 ≠ [])
    (hmin : ∀ n, trackBytes sample n ≠ [] → placeOf 0 (a ++ b) n0 ≤ placeOf 0 (a ++ b) n)
    (hstart : riffStart (aviBytes (Movie.parts (a ++ b))) (placeOf 0 (a ++ b) n0) = .ok (aviBytes (Movie.parts a)).length) :
    srsAviReconstruct srs (aviBytes (Movie.parts (a ++ b))) ig =
      .ok ⟨aviBytes sample, (aviBytes sample).length, (crc32 (aviBytes sample) 0).toNat, true⟩ := by
  obtain ⟨⟨ts, hload, hdist, hts⟩, hreb⟩ := avi_strip_rebuild_partial hp h
  have hkeys : ∀ n, n ∈ trackKeys ts ↔ ∃ p ∈ sample, p.track = some n := by
    intro n
    constructor
    · intro hn
      obtain ⟨x, hx, rfl⟩ := List.mem_map.1 hn
      exact ((hts x.1 x.2).1 hx).1
    · intro hn
      exact List.mem_map.2 ⟨_, (hts n _).2 ⟨hn, rfl⟩, rfl⟩
  have hinv : FindInv sample (a ++ b) (tracksIn sample (a ++ b)) [] ts := findInv_start hdist hkeys fun n hn => by
    obtain ⟨x, hx, rfl⟩ := List.mem_map.1 hn
    rw [getNew_of_mem hdist hx, ((hts x.1 x.2).1 hx).2]
    exact ⟨⟨rfl, rfl⟩, fun _ => rfl, rfl, rfl⟩
  have hany : ts.any (fun t => t.2.matchOffset == 0) = true := by
    obtain ⟨x, hx, _⟩ := List.mem_map.1 ((hkeys n0).2 (occurs_of_bytes hn0))
    refine List.any_eq_true.2 ⟨x, hx, ?_⟩
    rw [((hts x.1 x.2).1 hx).2]
    rfl
  exact avi_loaded_rebuilt hload hreb hcut hread hinv (fun hc => absurd (Or.inr hany) hc) hlen hn0 hmin hstart

private theorem mem_put {ts : Tracks} {n : Nat} {t : TrackData} {x : Nat × TrackData} (h : x ∈ ts.put n t) : x ∈ ts ∨ x = (n, t) := by
  induction ts with
  | nil => exact .inr (by simpa [Tracks.put] using h)
  | cons y ts ih =>
    obtain ⟨k, u⟩ := y
    rw [Tracks.put] at h
    split at h
    · rename_i e
      rcases List.mem_cons.1 h with h | h
      · exact .inr (e ▸ h)
      · exact .inl (by simp [h])
    · rcases List.mem_cons.1 h with h | h
      · exact .inl (by simp [h])
      · rcases ih h with h | h
        · exact .inl (by simp [h])
        · exact .inr h

/-- A step of the search changes at most one track, and not what is stored of it but its place. -/
theorem findStep_put {file : Bytes} {it : RiffItem} {ts ts' : Tracks} {go : Bool} (hs : findStep file ts it = .ok (ts', go)) :
    ts' = ts ∨ ∃ n t, ts' = ts.put n t ∧ t.number = (ts.getNew n).number ∧ t.flags = (ts.getNew n).flags ∧ t.sig = (ts.getNew n).sig := by
  unfold findStep at hs
  split at hs
  · unfold aviFindMovi at hs
    dsimp only at hs
    split at hs
    · split at hs
      · generalize hg : (decide (0 < (ts.getNew it.chunk.stream).checkBytes.length ∧ (ts.getNew it.chunk.stream).checkBytes.length < (ts.getNew it.chunk.stream).sig.length)) = going at hs
        generalize ht1 : (if going = true then
            if List.isPrefixOf ((ts.getNew it.chunk.stream).checkBytes ++ it.data.take (min (ts.getNew it.chunk.stream).sig.length (it.chunk.size + (ts.getNew it.chunk.stream).checkBytes.length) - (ts.getNew it.chunk.stream).checkBytes.length)) (ts.getNew it.chunk.stream).sig = true then
              { ts.getNew it.chunk.stream with checkBytes := (ts.getNew it.chunk.stream).checkBytes ++ it.data.take (min (ts.getNew it.chunk.stream).sig.length (it.chunk.size + (ts.getNew it.chunk.stream).checkBytes.length) - (ts.getNew it.chunk.stream).checkBytes.length) }
            else { ts.getNew it.chunk.stream with checkBytes := [], matchOffset := 0, matchLength := 0 }
          else ts.getNew it.chunk.stream) = t1 at hs
        have h1 : t1.number = (ts.getNew it.chunk.stream).number ∧ t1.flags = (ts.getNew it.chunk.stream).flags ∧
            t1.sig = (ts.getNew it.chunk.stream).sig := by
          rw [← ht1]
          split
          · split <;> exact ⟨rfl, rfl, rfl⟩
          · exact ⟨rfl, rfl, rfl⟩
        split at hs
        · simp only [bind_eq_ok] at hs
          obtain ⟨d, _, hs⟩ := hs
          split at hs <;>
          · simp only [pure_eq_ok, Except.ok.injEq, Prod.mk.injEq] at hs
            exact .inr ⟨_, _, hs.1.symm, h1⟩
        · simp only [pure_eq_ok, Except.ok.injEq, Prod.mk.injEq] at hs
          exact .inr ⟨_, _, hs.1.symm, h1⟩
      · simp only [pure_eq_ok, Except.ok.injEq, Prod.mk.injEq] at hs
        exact .inr ⟨_, _, hs.1.symm, rfl, rfl, rfl⟩
    · split at hs <;>
      · simp only [pure_eq_ok, Except.ok.injEq, Prod.mk.injEq] at hs
        exact .inr ⟨_, _, hs.1.symm, rfl, rfl, rfl⟩
  · simp only [Except.ok.injEq, Prod.mk.injEq] at hs
    exact .inl hs.1.symm

/-- The tracks that the search makes are plain. -/
theorem find_plain {file : Bytes} {its : List RiffItem} : ∀ {ts ts1 : Tracks}, (∀ x ∈ ts, x.1 = x.2.number ∧ x.2.flags = 0) →
    foldGo (findStep file) ts its = .ok ts1 → ∀ x ∈ ts1, x.1 = x.2.number ∧ x.2.flags = 0 := by
  induction its with
  | nil =>
    intro ts ts1 h e
    simp only [foldGo, Except.ok.injEq] at e
    exact e ▸ h
  | cons it its ih =>
    intro ts ts1 h e
    simp only [foldGo, bind_eq_ok] at e
    obtain ⟨⟨ts', go⟩, hs, e⟩ := e
    have hput := findStep_put hs
    have hpl : ∀ x ∈ ts', x.1 = x.2.number ∧ x.2.flags = 0 := by
      rcases hput with rfl | ⟨n, t, rfl, hn, hf, _⟩
      · exact h
      · have hget : (ts.getNew n).number = n ∧ (ts.getNew n).flags = 0 := by
          by_cases hk : n ∈ trackKeys ts
          · unfold Tracks.getNew
            split
            · rename_i k x hx
              exact ⟨rfl, (h _ (List.mem_of_find?_eq_some hx)).2⟩
            · exact ⟨rfl, rfl⟩
          · rw [getNew_not_mem hk]; exact ⟨rfl, rfl⟩
        intro x hx
        rcases mem_put hx with hx | rfl
        · exact h x hx
        · exact ⟨(hn.trans hget.1).symm, hf.trans hget.2⟩
    dsimp only at e
    split at e
    · exact ih hpl e
    · simp only [pure_eq_ok, Except.ok.injEq] at e
      exact e ▸ hpl

/-- C62, for an SRS that was made with the movie at hand (`-c`): the places of the tracks are in it.  All tracks
have data. -/
theorem avi_checked_rebuilt_from_partial {app name : Str} {sample : List AviPart} {a b : Movie} {big ig : Bool} {srs : Bytes}
    (hp : PlainAvi sample) (h : srsAviCreate app name (aviBytes sample) big (some (aviBytes (Movie.parts (a ++ b)))) = .ok srs)
    (hdata : ∀ n, (∃ p ∈ sample, p.track = some n) → trackBytes sample n ≠ [])
    (hcut : CutFrom sample (a ++ b)) (hread : ReadFrom sample a b)
    (hlen : (aviBytes (Movie.parts (a ++ b))).length < 2 ^ 63)
    {n0 : Nat} (hn0 : trackBytes sample n0 ≠ [])
    (hmin : ∀ n, trackBytes sample n ≠ [] → placeOf 0 (a ++ b) n0 ≤ placeOf 0 (a ++ b) n)
    (hstart : riffStart (aviBytes (Movie.parts (a ++ b))) (placeOf 0 (a ++ b) n0) = .ok (aviBytes (Movie.parts a)).length) :
    srsAviReconstruct srs (aviBytes (Movie.parts (a ++ b))) ig =
      .ok ⟨aviBytes sample, (aviBytes sample).length, (crc32 (aviBytes sample) 0).toNat, true⟩ := by
  unfold srsAviCreate at h
  split at h
  · simp at h
  simp only [bind_eq_ok] at h
  obtain ⟨⟨crc, tracks⟩, hprof, h⟩ := h
  obtain ⟨rfl, hts⟩ := aviProfile_ok hp.ok hprof
  dsimp only at h
  split at h
  · simp at h
  have hinv0 : FindInv sample (a ++ b) (tracksIn sample (a ++ b)) [] tracks := findInv_start hts.distinct hts.keys fun n hn => by
    obtain ⟨x, hx, rfl⟩ := List.mem_map.1 hn
    rw [getNew_of_mem hts.distinct hx, hts.data x.1 x.2 hx]
    exact ⟨⟨rfl, rfl⟩, fun _ => rfl, rfl, rfl⟩
  obtain ⟨ts1, hfind, hloc, hun, its, hfold⟩ := avi_find_located hcut hinv0
  have hpl := find_plain (fun x hx => ⟨(tracksOf_small hts x hx).1, (tracksOf_small hts x hx).2.2⟩) (hfold.symm.trans hfind)
  rw [hfind] at h
  simp only [ok_bind, hun, Bool.false_eq_true, if_false, pure_eq_ok] at h
  -- what is in the SRS
  have hsig : ∀ x ∈ ts1, x.2.sig = (trackBytes sample x.1).take 256 ∧ x.2.dataLength = (trackBytes sample x.1).length ∧
      x.2.matchOffset = if trackBytes sample x.1 = [] then 0 else (placeOf 0 (a ++ b) x.1 : Int) := by
    intro x hx
    have h1 := hloc.sig x.1
    have h2 := hloc.len x.1
    have h3 := hloc.off x.1
    rw [getNew_of_mem hloc.distinct hx] at h1 h2 h3
    exact ⟨h1, h2, h3⟩
  have hkeep : ∀ x ∈ ts1, x.2.sig ≠ [] ↔ trackBytes sample x.1 ≠ [] := by
    intro x hx
    rw [(hsig x hx).1]
    cases trackBytes sample x.1 <;> simp
  have hsub : ∀ x ∈ ts1.filter (fun t => t.2.sig ≠ []), x ∈ ts1 ∧ trackBytes sample x.1 ≠ [] := by
    intro x hx
    obtain ⟨h1, h2⟩ := List.mem_filter.1 hx
    exact ⟨h1, (hkeep x h1).1 (by simpa using h2)⟩
  have hd1 : (ts1.filter (fun t => t.2.sig ≠ [])).Pairwise (fun a b => a.1 ≠ b.1) := hloc.distinct.sublist List.filter_sublist
  obtain ⟨h1, h2⟩ := avi_srs_rebuilds hp (fun x hx => by
    obtain ⟨m1, m2⟩ := hsub x hx
    obtain ⟨e1, e2⟩ := hpl x m1
    have hk := (hts.keys x.1).2 (occurs_of_bytes m2)
    obtain ⟨y, hy, hyx⟩ := List.mem_map.1 hk
    obtain ⟨f1, f2, _⟩ := tracksOf_small hts y hy
    exact ⟨e1, by omega, e2⟩) hd1 h
  rw [Nat.mod_eq_of_lt (BitVec.isLt _)] at h1
  obtain ⟨ts2, hts2⟩ : ∃ ts2 : Tracks, (ts1.filter (fun t => t.2.sig ≠ [])).map (fun p => (p.1, readTrack big p.2)) = ts2 := ⟨_, rfl⟩
  rw [hts2] at h1
  have hdist2 : ts2.Pairwise (fun a b => a.1 ≠ b.1) := by
    rw [← hts2]
    exact List.pairwise_map.2 hd1
  have hkeys2 : ∀ n, n ∈ trackKeys ts2 ↔ ∃ p ∈ sample, p.track = some n := by
    intro n
    constructor
    · intro hn
      obtain ⟨y, hy, rfl⟩ := List.mem_map.1 hn
      rw [← hts2] at hy
      obtain ⟨x, hx, rfl⟩ := List.mem_map.1 hy
      exact occurs_of_bytes (hsub x hx).2
    · intro hn
      obtain ⟨x, hx, rfl⟩ := List.mem_map.1 (hloc.sup n hn)
      refine List.mem_map.2 ⟨(x.1, readTrack big x.2), ?_, rfl⟩
      rw [← hts2]
      refine List.mem_map.2 ⟨x, List.mem_filter.2 ⟨hx, ?_⟩, rfl⟩
      simpa using (hkeep x hx).2 (hdata x.1 hn)
  have hget2 : ∀ n ∈ trackKeys ts2, ((ts2.getNew n).sig = (trackBytes sample n).take 256 ∧ (ts2.getNew n).dataLength = (trackBytes sample n).length) ∧
      (ts2.getNew n).matchOffset = placeOf 0 (a ++ b) n ∧ (ts2.getNew n).matchLength = 0 ∧ (ts2.getNew n).checkBytes = [] := by
    intro n hn
    obtain ⟨y, hy, rfl⟩ := List.mem_map.1 hn
    rw [getNew_of_mem hdist2 hy]
    rw [← hts2] at hy
    obtain ⟨x, hx, rfl⟩ := List.mem_map.1 hy
    obtain ⟨m1, m2⟩ := hsub x hx
    obtain ⟨e1, e2, e3⟩ := hsig x m1
    rw [if_neg m2] at e3
    exact ⟨⟨e1, e2⟩, e3, rfl, rfl⟩
  have hne2 : ∀ n ∈ trackKeys ts2, trackBytes sample n ≠ [] := fun n hn => hdata n ((hkeys2 n).1 hn)
  have hinv2 : FindInv sample (a ++ b) (tracksIn sample (a ++ b)) [] ts2 := findInv_start hdist2 hkeys2 fun n hn => by
    obtain ⟨e1, _, e3⟩ := hget2 n hn
    exact ⟨e1, fun e => absurd e (hne2 n hn), e3⟩
  refine avi_loaded_rebuilt h1 ?_ hcut hread hinv2 (fun _ => ?_) hlen hn0 hmin hstart
  · intro ts files hf hdat
    refine h2 ts files hf fun n hn => ?_
    obtain ⟨⟨t, ht⟩, hr⟩ := hdat n hn
    exact ⟨List.mem_map.2 ⟨_, ht, rfl⟩, hr⟩
  · refine ⟨hdist2, hinv2.sub, hinv2.sup, hinv2.sig, hinv2.len, fun n => ?_⟩
    by_cases hn : n ∈ trackKeys ts2
    · rw [if_neg (hne2 n hn)]
      exact (hget2 n hn).2.1
    · have hb : trackBytes sample n = [] := trackBytes_none fun p hpm ht => hn ((hkeys2 n).2 ⟨p, hpm, ht⟩)
      rw [getNew_not_mem hn, if_pos hb]

theorem placeOf_boundary {a rest : Movie} {id data : Bytes} {pad : UInt8} {n : Nat} (ha : fromPlace a n = [])
    (ht : (AviPart.chunk id data pad).track = some n) (hd : data ≠ []) :
    placeOf 0 (a ++ (.chunk id data pad, 0) :: rest) n = (aviBytes (Movie.parts a)).length + 8 := by
  rw [placeOf_append_nil ha, placeOf, if_pos (by rw [fromPlace_single ht]; simpa using hd)]
  simp

/-- Reading starts at the chunk that the first track starts with. -/
theorem boundary_start {sample : List AviPart} {a b : Movie} {id data : Bytes} {pad : UInt8} {n0 : Nat}
    (hcut : CutFrom sample (a ++ (.chunk id data pad, 0) :: b)) (hread : ReadFrom sample a ((.chunk id data pad, 0) :: b))
    (ht : (AviPart.chunk id data pad).track = some n0) (hd : data ≠ []) (hn0 : trackBytes sample n0 ≠ []) :
    (∀ n, trackBytes sample n ≠ [] → placeOf 0 (a ++ (.chunk id data pad, 0) :: b) n0 ≤ placeOf 0 (a ++ (.chunk id data pad, 0) :: b) n) ∧
    riffStart (aviBytes (Movie.parts (a ++ (.chunk id data pad, 0) :: b))) (placeOf 0 (a ++ (.chunk id data pad, 0) :: b) n0) =
      .ok (aviBytes (Movie.parts a)).length := by
  have hpl := placeOf_boundary (rest := b) (hread.before n0 hn0) ht hd
  have hok : (AviPart.chunk id data pad).Ok := hcut.ok (.chunk id data pad, 0) (by simp)
  refine ⟨fun n hn => ?_, ?_⟩
  · rw [hpl, placeOf_append_nil (hread.before n hn)]
    have hpla := hcut.place hn
    rw [fromPlace_append, hread.before n hn, List.nil_append] at hpla
    have := placeOf_ge hpla (0 + (aviBytes (Movie.parts a)).length)
    omega
  · rw [hpl]
    obtain ⟨rest, he⟩ : ∃ rest, aviBytes (Movie.parts (a ++ (.chunk id data pad, 0) :: b)) = aviBytes (Movie.parts a) ++ (id ++ rest) ∧
        4 + data.length ≤ rest.length := by
      refine ⟨le 4 data.length ++ (data ++ padding data pad) ++ aviBytes (Movie.parts b), ?_, ?_⟩
      · simp [aviBytes, Movie.parts, AviPart.bytes]
      · simp
    obtain ⟨he, hl⟩ := he
    have hd1 := List.length_pos_iff.2 hd
    have hid := hok.1
    rw [he]
    unfold riffStart
    rw [if_pos (by simp; omega), if_pos, Nat.add_sub_cancel]
    rw [validLocation, Nat.add_sub_cancel, readAt_append _ id rest rfl hid]
    exact validFourcc_of hok.1 hok.2.1

/-- C62: for every sample and every movie: when the sample was cut out of the movie and the first of its
tracks starts with a chunk of the movie (the others may start in the middle of one), then the
sample is rebuilt. -/
theorem avi_cut_rebuilt_partial {app name : Str} {sample : List AviPart} {a b : Movie} {big ig : Bool} {srs : Bytes}
    {id data : Bytes} {pad : UInt8} {n0 : Nat}
    (hp : PlainAvi sample) (h : srsAviCreate app name (aviBytes sample) big none = .ok srs)
    (hcut : CutFrom sample (a ++ (.chunk id data pad, 0) :: b)) (hread : ReadFrom sample a ((.chunk id data pad, 0) :: b))
    (ht : (AviPart.chunk id data pad).track = some n0) (hd : data ≠ []) (hn0 : trackBytes sample n0 ≠ [])
    (hlen : (aviBytes (Movie.parts (a ++ (.chunk id data pad, 0) :: b))).length < 2 ^ 63) :
    srsAviReconstruct srs (aviBytes (Movie.parts (a ++ (.chunk id data pad, 0) :: b))) ig =
      .ok ⟨aviBytes sample, (aviBytes sample).length, (crc32 (aviBytes sample) 0).toNat, true⟩ := by
  have hb := boundary_start hcut hread ht hd hn0
  exact avi_cut_rebuilt_from_partial hp h hcut hread hlen hn0 hb.1 hb.2

/-- The same for an SRS that was made with the movie at hand. -/
theorem avi_checked_rebuilt_partial {app name : Str} {sample : List AviPart} {a b : Movie} {big ig : Bool} {srs : Bytes}
    {id data : Bytes} {pad : UInt8} {n0 : Nat}
    (hp : PlainAvi sample) (h : srsAviCreate app name (aviBytes sample) big (some (aviBytes (Movie.parts (a ++ (.chunk id data pad, 0) :: b)))) = .ok srs)
    (hdata : ∀ n, (∃ p ∈ sample, p.track = some n) → trackBytes sample n ≠ [])
    (hcut : CutFrom sample (a ++ (.chunk id data pad, 0) :: b)) (hread : ReadFrom sample a ((.chunk id data pad, 0) :: b))
    (ht : (AviPart.chunk id data pad).track = some n0) (hd : data ≠ []) (hn0 : trackBytes sample n0 ≠ [])
    (hlen : (aviBytes (Movie.parts (a ++ (.chunk id data pad, 0) :: b))).length < 2 ^ 63) :
    srsAviReconstruct srs (aviBytes (Movie.parts (a ++ (.chunk id data pad, 0) :: b))) ig =
      .ok ⟨aviBytes sample, (aviBytes sample).length, (crc32 (aviBytes sample) 0).toNat, true⟩ := by
  have hb := boundary_start hcut hread ht hd hn0
  exact avi_checked_rebuilt_from_partial hp h hdata hcut hread hlen hn0 hb.1 hb.2

/-- The result is the right one whenever it is said to be: its CRC is that of the sample. -/
theorem avi_result_sound {srs main : Bytes} {ig : Bool} {r : SrsResult} (h : srsAviReconstruct srs main ig = .ok r) :
    r.good = true ↔ (crc32 r.file 0).toNat = r.crc := by
  unfold srsAviReconstruct at h
  simp only [bind_eq_ok] at h
  obtain ⟨⟨f, t0⟩, _, t1, _, ⟨t2, fs⟩, _, h⟩ := h
  dsimp only at h
  split at h
  · simp at h
  · simp only [bind_eq_ok, pure_eq_ok, Except.ok.injEq] at h
    obtain ⟨⟨out, crc⟩, hr, h⟩ := h
    rw [← h]
    dsimp only
    rw [avi_reported_crc hr]
    simp

/-- Splitting a list at the first part with stream data. -/
theorem split_first_data : ∀ (parts : List AviPart) {n : Nat}, trackBytes parts n ≠ [] →
    ∃ pre id data pad rest k, parts = pre ++ .chunk id data pad :: rest ∧ data ≠ [] ∧
      (AviPart.chunk id data pad).track = some k ∧ ∀ m, trackBytes pre m = [] := by
  intro parts n
  induction parts with
  | nil => intro h; exact absurd rfl h
  | cons p ps ih =>
    intro h
    by_cases hex : ∃ k, trackBytes [p] k ≠ []
    · obtain ⟨k, hk⟩ := hex
      cases p with
      | list => exact absurd rfl hk
      | chunk id data pad =>
        have ht : (AviPart.chunk id data pad).track = some k := by
          apply Classical.byContradiction
          intro hh
          exact hk (trackBytes_single_of_ne hh)
        rw [trackBytes_single ht] at hk
        exact ⟨[], id, data, pad, ps, k, rfl, hk, ht, fun _ => rfl⟩
    · have hnil : ∀ k, trackBytes [p] k = [] := by
        intro k
        apply Classical.byContradiction
        exact fun hk => hex ⟨k, hk⟩
      rw [trackBytes_cons, hnil, List.nil_append] at h
      obtain ⟨pre, id, data, pad, rest, k, e, h1, h2, h3⟩ := ih h
      refine ⟨p :: pre, id, data, pad, rest, k, by rw [e]; rfl, h1, h2, fun m => ?_⟩
      rw [trackBytes_cons, hnil, h3, List.nil_append]

/-- Every sample whose tracks all have data is rebuilt from itself. -/
theorem avi_self_rebuilt {app name : Str} {sample : List AviPart} {big ig : Bool} {srs : Bytes}
    (hp : PlainAvi sample) (h : srsAviCreate app name (aviBytes sample) big none = .ok srs)
    (hdata : ∀ n, (∃ p ∈ sample, p.track = some n) → trackBytes sample n ≠ [])
    (hany : ∃ n, ∃ p ∈ sample, p.track = some n)
    (hlen : (aviBytes sample).length < 2 ^ 63) :
    srsAviReconstruct srs (aviBytes sample) ig =
      .ok ⟨aviBytes sample, (aviBytes sample).length, (crc32 (aviBytes sample) 0).toNat, true⟩ := by
  obtain ⟨n, hn⟩ := hany
  obtain ⟨pre, id, data, pad, rest, k, e, h1, h2, h3⟩ := split_first_data sample (hdata n hn)
  -- nothing comes before the sample
  obtain ⟨mv, hmv⟩ : ∃ mv : List AviPart → Movie, mv = fun l => l.map fun p => (p, 0) := ⟨_, rfl⟩
  have hparts : ∀ l, Movie.parts (mv l) = l := by intro l; rw [hmv]; simp [Movie.parts, Function.comp_def]
  have hfp : ∀ l m, fromPlace (mv l) m = trackBytes l m := by
    intro l m
    rw [hmv]
    induction l with
    | nil => rfl
    | cons p l ih =>
      dsimp only at ih ⊢
      rw [List.map_cons, fromPlace_cons, trackBytes_cons, ih]
      cases p <;> simp [fromPlace, trackBytes]
  have hmve : mv sample = mv pre ++ (.chunk id data pad, 0) :: mv rest := by rw [e, hmv]; simp
  have hzero : ∀ x ∈ mv sample, x.2 = 0 := by
    intro x hx
    rw [hmv] at hx
    obtain ⟨y, _, rfl⟩ := List.mem_map.1 hx
    rfl
  have hcut : CutFrom sample (mv sample) := by
    refine ⟨fun x hx => hp.ok x.1 ?_, fun m => by rw [hfp]; exact List.prefix_refl _, ?_, ?_⟩
    · rw [← hparts sample]
      exact List.mem_map.2 ⟨x, hx, rfl⟩
    · intro a id' data' pad' k' b m he _ _
      exact hzero (.chunk id' data' pad', k') (by rw [he]; simp)
    · intro a id' data' pad' k' b m he _ _ i hi
      have := hzero (.chunk id' data' pad', k') (by rw [he]; simp)
      dsimp only at this
      omega
  have hread : ReadFrom sample (mv pre) ((.chunk id data pad, 0) :: mv rest) := by
    refine ⟨fun m _ => by rw [hfp]; exact h3 m, ?_⟩
    rintro m ⟨p, hpm, ht⟩
    have hps : p ∈ sample := by
      rcases List.mem_append.1 hpm with hpm | hpm
      · exact hpm
      · rw [hparts] at hpm
        rw [e]; exact List.mem_append.2 (Or.inl hpm)
    have hb := hdata m ⟨p, hps, ht⟩
    rw [e, trackBytes_append, h3, List.nil_append] at hb
    obtain ⟨q, hq, hqt⟩ := occurs_of_bytes hb
    rcases List.mem_cons.1 hq with rfl | hq
    · exact ⟨_, List.mem_cons_self, hqt⟩
    · refine ⟨(q, 0), List.mem_cons_of_mem _ ?_, hqt⟩
      rw [hmv]
      exact List.mem_map.2 ⟨q, hq, rfl⟩
  rw [hmve] at hcut
  have := avi_cut_rebuilt_partial (ig := ig) hp h hcut hread h2 h1 ?_ (by rw [← hmve, hparts]; exact hlen)
  · rw [← hmve, hparts] at this
    exact this
  · rw [e, trackBytes_append, trackBytes_cons, trackBytes_single h2]
    simp [h1]

/-! ### Examples, and what is false -/

/-- A movie that `aviExample` was cut from: other headers, data before and after, and other
chunks.  The second track starts in the middle of a chunk. -/
def moviePre : Movie :=
  [ (.list true 200 [0x41, 0x56, 0x49, 0x20], 0),
    (.list false 90 [0x6D, 0x6F, 0x76, 0x69], 0),
    (.chunk [0x30, 0x31, 0x77, 0x62] [1, 2, 3] 0, 3),
    (.chunk [0x30, 0x30, 0x64, 0x63] [8, 7] 0, 2) ]

def movieRest : Movie :=
  [ (.chunk [0x30, 0x31, 0x77, 0x62] [1, 3, 4] 7, 2),
    (.chunk [0x30, 0x31, 0x77, 0x62] [] 7, 0),
    (.chunk [0x30, 0x30, 0x64, 0x63] [7, 6, 5] 7, 0),
    (.list false 50 [0x72, 0x65, 0x63, 0x20], 0),
    (.chunk [0x30, 0x31, 0x77, 0x62] [4, 1, 2] 7, 0),
    (.chunk [0x30, 0x30, 0x64, 0x63] [8, 7] 0, 0) ]

def moviePost : Movie := (.chunk [0x30, 0x30, 0x64, 0x63] [9, 8] 0, 0) :: movieRest

theorem track_small {parts : List AviPart} {k : Nat} (h : ∀ p ∈ parts, ∀ n ∈ p.track, n < k) {n : Nat}
    (hn : ∃ p ∈ parts, p.track = some n) : n < k := by
  obtain ⟨p, hp, ht⟩ := hn
  exact h p hp n (by rw [ht]; rfl)

/-- `CutFrom` can be checked for a given movie. -/
def cutCheckPart (sample : List AviPart) (a : Movie) (k : Nat) : AviPart → Bool
  | .list .. => true
  | .chunk id data pad =>
    match (AviPart.chunk id data pad).track with
    | none => true
    | some n => (fromPlace a n == [] || k == 0) &&
        (trackBytes sample n == [] || (List.range (min k data.length)).all fun i =>
          !(((data.drop i).take ((trackBytes sample n).take 256).length).isPrefixOf ((trackBytes sample n).take 256)))

def cutCheck (sample : List AviPart) : Movie → Movie → Bool
  | _, [] => true
  | a, p :: b => cutCheckPart sample a p.2 p.1 && cutCheck sample (a ++ [p]) b

theorem cutCheck_at {sample : List AviPart} : ∀ {b a : Movie}, cutCheck sample a b = true →
    ∀ c id data pad k d n, a ++ b = c ++ (.chunk id data pad, k) :: d → a.length ≤ c.length →
    (AviPart.chunk id data pad).track = some n →
    (fromPlace c n ≠ [] → k = 0) ∧ (trackBytes sample n ≠ [] → ∀ i < k, i < data.length →
      ¬ ((data.drop i).take ((trackBytes sample n).take 256).length <+: (trackBytes sample n).take 256)) := by
  intro b
  induction b with
  | nil =>
    intro a _ c id data pad k d n he hl _
    have := congrArg List.length he
    simp at this
    omega
  | cons q b ih =>
    obtain ⟨q, k'⟩ := q
    intro a h c id data pad k d n he hl ht
    rw [cutCheck, Bool.and_eq_true] at h
    by_cases hle : a.length = c.length
    · obtain ⟨e1, e2⟩ := List.append_inj he hle
      subst e1
      injection e2 with e2 e3
      injection e2 with e2 e4
      subst e2 e4
      dsimp only [cutCheckPart] at h
      rw [ht] at h
      simp only [Bool.and_eq_true, Bool.or_eq_true, beq_iff_eq, List.all_eq_true, List.mem_range, Bool.not_eq_true'] at h
      refine ⟨fun hh => h.1.1.resolve_left hh, fun hh i hi hi2 hp => ?_⟩
      have := (h.1.2.resolve_left hh) i (by omega)
      rw [List.isPrefixOf_iff_prefix.2 hp] at this
      simp at this
    · exact ih (a := a ++ [(q, k')]) h.2 c id data pad k d n (by simpa using he) (by simp; omega) ht

theorem cut_of_check {sample : List AviPart} {N : Nat} {movie : Movie} (hok : ∀ p ∈ movie, p.1.Ok)
    (hd : ∀ n < N, trackBytes sample n <+: fromPlace movie n) (hN : ∀ n, N ≤ n → trackBytes sample n = [])
    (hc : cutCheck sample [] movie = true) : CutFrom sample movie := by
  refine ⟨hok, fun n => ?_, ?_, ?_⟩
  · by_cases hn : n < N
    · exact hd n hn
    · rw [hN n (by omega)]; exact List.nil_prefix
  · intro a id data pad k b n he ht hh
    exact (cutCheck_at hc a id data pad k b n (by simpa using he) (by simp) ht).1 hh
  · intro a id data pad k b n he ht hh
    exact (cutCheck_at hc a id data pad k b n (by simpa using he) (by simp) ht).2 hh

theorem aviExample_tracks : ∀ n, 2 ≤ n → trackBytes aviExample n = [] := by
  intro n hn
  refine trackBytes_none fun p hp ht => ?_
  have := track_small (parts := aviExample) (k := 2) (by decide) ⟨p, hp, ht⟩
  omega

theorem movie_cut : CutFrom aviExample (moviePre ++ moviePost) :=
  cut_of_check (N := 2) (by decide) (by decide) aviExample_tracks (by decide)

theorem movie_read : ReadFrom aviExample moviePre moviePost := by
  refine ⟨fun n hn => ?_, fun n hn => ?_⟩
  · match n with
    | 0 => decide
    | 1 => decide
    | n + 2 => exact absurd (aviExample_tracks _ (by omega)) hn
  · have := track_small (k := 2) (by decide) hn
    match n, this with
    | 0, _ => exact ⟨_, List.mem_cons_self, by decide⟩
    | 1, _ => exact ⟨_, List.mem_cons_of_mem _ List.mem_cons_self, by decide⟩

set_option maxRecDepth 100000 in
/-- The hypotheses of `avi_cut_rebuilt_partial` are met. -/
example : ∃ srs, srsAviCreate [0x61] [0x73] (aviBytes aviExample) false none = .ok srs ∧
    srsAviReconstruct srs (aviBytes (Movie.parts (moviePre ++ moviePost))) false =
      .ok ⟨aviBytes aviExample, (aviBytes aviExample).length, (crc32 (aviBytes aviExample) 0).toNat, true⟩ := by
  obtain ⟨srs, hs⟩ := avi_create_succeeds (app := [0x61]) (name := [0x73]) (big := false) aviExample_plain.ok aviExample_fits
    ⟨.chunk [0x30, 0x31, 0x77, 0x62] [4, 4] 0, by simp [aviExample], by decide⟩ (by decide)
    (by unfold Encodable; decide) (by unfold Encodable; decide)
  exact ⟨srs, hs, avi_cut_rebuilt_partial aviExample_plain hs movie_cut movie_read (n0 := 0) (by decide) (by decide) (by decide)
    (by decide)⟩

set_option maxRecDepth 100000 in
/-- The hypotheses of `avi_checked_rebuilt_partial` are met. -/
example : ∃ srs, srsAviCreate [0x61] [0x73] (aviBytes aviExample) false (some (aviBytes (Movie.parts (moviePre ++ moviePost)))) = .ok srs ∧
    srsAviReconstruct srs (aviBytes (Movie.parts (moviePre ++ moviePost))) false =
      .ok ⟨aviBytes aviExample, (aviBytes aviExample).length, (crc32 (aviBytes aviExample) 0).toNat, true⟩ := by
  have hm : (srsAviCreate [0x61] [0x73] (aviBytes aviExample) false (some (aviBytes (Movie.parts (moviePre ++ moviePost))))).isOk = true := by decide +kernel
  cases hs : srsAviCreate [0x61] [0x73] (aviBytes aviExample) false (some (aviBytes (Movie.parts (moviePre ++ moviePost)))) with
  | error e => rw [hs] at hm; simp [Except.isOk, Except.toBool] at hm
  | ok srs =>
    refine ⟨srs, rfl, avi_checked_rebuilt_partial aviExample_plain hs ?_ movie_cut movie_read (n0 := 0) (by decide) (by decide) (by decide)
      (by decide)⟩
    intro n hn
    have := track_small (k := 2) (by decide) hn
    match n, this with
    | 0, _ => decide
    | 1, _ => decide

/-- A movie without index in which all of the sample starts in the middle of chunks. -/
def middleMovie : Movie :=
  [ (.list true 98 [0x41, 0x56, 0x49, 0x20], 0),
    (.list false 86 [0x6D, 0x6F, 0x76, 0x69], 0),
    (.chunk [0x30, 0x31, 0x77, 0x62] [1, 2, 3] 0, 3),
    (.chunk [0x30, 0x30, 0x64, 0x63] [8, 7, 0, 0, 0, 9, 8, 7] 0, 5),
    (.chunk [0x30, 0x31, 0x77, 0x62] [1, 3, 4, 4] 7, 2),
    (.chunk [0x30, 0x30, 0x64, 0x63] [6, 5] 7, 0) ]

set_option maxRecDepth 100000 in
theorem middle_cut : CutFrom aviExample middleMovie :=
  cut_of_check (N := 2) (by decide) (by decide) aviExample_tracks (by decide)

set_option maxRecDepth 100000 in
/-- The hypotheses of `avi_cut_rebuilt_from_partial` are met: without index the movie is read from
its start. -/
example : ∃ srs, srsAviCreate [0x61] [0x73] (aviBytes aviExample) false none = .ok srs ∧
    srsAviReconstruct srs (aviBytes (Movie.parts middleMovie)) false =
      .ok ⟨aviBytes aviExample, (aviBytes aviExample).length, (crc32 (aviBytes aviExample) 0).toNat, true⟩ := by
  obtain ⟨srs, hs⟩ := avi_create_succeeds (app := [0x61]) (name := [0x73]) (big := false) aviExample_plain.ok aviExample_fits
    ⟨.chunk [0x30, 0x31, 0x77, 0x62] [4, 4] 0, by simp [aviExample], by decide⟩ (by decide)
    (by unfold Encodable; decide) (by unfold Encodable; decide)
  refine ⟨srs, hs, avi_cut_rebuilt_from_partial (a := []) (b := middleMovie) (n0 := 0) aviExample_plain hs middle_cut ⟨?_, ?_⟩
    (by decide) (by decide) (fun n hn => ?_) ?_⟩
  · intro n _; rfl
  · intro n hn
    have := track_small (k := 2) (by decide) hn
    match n, this with
    | 0, _ => exact ⟨_, List.mem_cons_of_mem _ (List.mem_cons_of_mem _ (List.mem_cons_of_mem _ List.mem_cons_self)), by decide⟩
    | 1, _ => exact ⟨_, List.mem_cons_of_mem _ (List.mem_cons_of_mem _ List.mem_cons_self), by decide⟩
  · match n with
    | 0 => decide
    | 1 => decide
    | n + 2 => exact absurd (aviExample_tracks _ (by omega)) hn
  · have : (match riffStart (aviBytes (Movie.parts middleMovie)) (placeOf 0 middleMovie 0) with
      | .ok n => n == 0 | .error _ => false) = true := by decide +kernel
    change riffStart (aviBytes (Movie.parts middleMovie)) (placeOf 0 middleMovie 0) = .ok 0
    cases hh : riffStart (aviBytes (Movie.parts middleMovie)) (placeOf 0 middleMovie 0) with
    | error e => rw [hh] at this; simp at this
    | ok n => rw [hh] at this; simp at this; rw [this]

def cutSample : List AviPart :=
  [.list false 15 [0x6D, 0x6F, 0x76, 0x69], .chunk [0x30, 0x30, 0x64, 0x63] [1, 1, 2] 0]

def extraMovie : List AviPart :=
  [.list false 23 [0x6D, 0x6F, 0x76, 0x69], .chunk [0x30, 0x35, 0x77, 0x62] [7, 7] 0, .chunk [0x30, 0x30, 0x64, 0x63] [1, 1, 2] 0]

set_option maxRecDepth 100000 in
/-- C62 is false when the movie has another track with data only before the sample: the program
then fails, although it has all the data. -/
theorem avi_extra_track_fails : ∃ srs, srsAviCreate [0x61] [0x73] (aviBytes cutSample) false none = .ok srs ∧
    trackBytes extraMovie 0 = trackBytes cutSample 0 ∧
    srsAviReconstruct srs (aviBytes extraMovie) false = .error .attrError := by
  have h : (match srsAviCreate [0x61] [0x73] (aviBytes cutSample) false none with
    | .ok srs => (match srsAviReconstruct srs (aviBytes extraMovie) false with
      | .ok _ => false
      | .error e => e == .attrError)
    | .error _ => false) = true := by decide +kernel
  cases h1 : srsAviCreate [0x61] [0x73] (aviBytes cutSample) false none with
  | error e => rw [h1] at h; simp at h
  | ok srs =>
    rw [h1] at h
    dsimp only at h
    refine ⟨srs, rfl, by decide, ?_⟩
    cases h2 : srsAviReconstruct srs (aviBytes extraMovie) false with
    | ok e => rw [h2] at h; simp at h
    | error e =>
      rw [h2] at h
      have := eq_of_beq h
      rw [this]

def falseMovie : List AviPart :=
  [.list false 45 [0x6D, 0x6F, 0x76, 0x69], .chunk [0x30, 0x30, 0x64, 0x63] [5, 1] 0, .chunk [0x30, 0x30, 0x64, 0x63] [1] 0,
   .chunk [0x30, 0x30, 0x64, 0x63] [1, 2] 0]

set_option maxRecDepth 100000 in
/-- C62 is false when the start of the sample is cut into small chunks and the chunk before it
ends like the sample starts: the sample is then not found. -/
theorem avi_false_start : ∃ srs, srsAviCreate [0x61] [0x73] (aviBytes cutSample) false none = .ok srs ∧
    trackBytes falseMovie 0 = [5, 1] ++ trackBytes cutSample 0 ∧
    srsAviReconstruct srs (aviBytes falseMovie) false = .error .other := by
  have h : (match srsAviCreate [0x61] [0x73] (aviBytes cutSample) false none with
    | .ok srs => (match srsAviReconstruct srs (aviBytes falseMovie) false with
      | .ok _ => false
      | .error e => e == .other)
    | .error _ => false) = true := by decide +kernel
  cases h1 : srsAviCreate [0x61] [0x73] (aviBytes cutSample) false none with
  | error e => rw [h1] at h; simp at h
  | ok srs =>
    rw [h1] at h
    dsimp only at h
    refine ⟨srs, rfl, by decide, ?_⟩
    cases h2 : srsAviReconstruct srs (aviBytes falseMovie) false with
    | ok e => rw [h2] at h; simp at h
    | error e =>
      rw [h2] at h
      have := eq_of_beq h
      rw [this]

def emptyTrackSample : List AviPart :=
  [.list false 23 [0x6D, 0x6F, 0x76, 0x69], .chunk [0x30, 0x31, 0x77, 0x62] [] 0, .chunk [0x30, 0x30, 0x64, 0x63] [1, 1, 2] 0]

set_option maxRecDepth 100000 in
/-- C62 is false for samples with a track without data whose chunks come before all others: the
sample is not even rebuilt from itself. -/
theorem avi_empty_track_fails : ∃ srs, srsAviCreate [0x61] [0x73] (aviBytes emptyTrackSample) false none = .ok srs ∧
    srsAviReconstruct srs (aviBytes emptyTrackSample) false = .error .attrError := by
  have h : (match srsAviCreate [0x61] [0x73] (aviBytes emptyTrackSample) false none with
    | .ok srs => (match srsAviReconstruct srs (aviBytes emptyTrackSample) false with
      | .ok _ => false
      | .error e => e == .attrError)
    | .error _ => false) = true := by decide +kernel
  cases h1 : srsAviCreate [0x61] [0x73] (aviBytes emptyTrackSample) false none with
  | error e => rw [h1] at h; simp at h
  | ok srs =>
    rw [h1] at h
    dsimp only at h
    refine ⟨srs, rfl, ?_⟩
    cases h2 : srsAviReconstruct srs (aviBytes emptyTrackSample) false with
    | ok e => rw [h2] at h; simp at h
    | error e =>
      rw [h2] at h
      have := eq_of_beq h
      rw [this]

end Rescene.Props
