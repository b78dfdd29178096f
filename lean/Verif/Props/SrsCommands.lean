import Verif.Props.SrsMain
import Verif.Props.MkvRetry
import Verif.Props.MovCutExample
import Verif.Props.WmvCutExample
/-
C81: what the command `srs sample` makes of a sample, the command `srs sample.srs movie` turns back
into it, for every kind of file, with and without `-c movie`.
-/
namespace Rescene.Props
open Spec

/-- The result that is wanted: the sample, with its size and CRC, reported as right. -/
def Restored (sample : Bytes) (r : Option (Res SrsResult)) : Prop :=
  r = some (.ok ⟨sample, sample.length, (crc32 sample 0).toNat, true⟩)

/-- The movie that is searched when the SRS is made. -/
theorem check_given {dig : Nat → Bool} {lower : Str → Str} {k : SampleKind} {path : Str} {sig : Option Bytes} {check : Option MediaFile}
    {movie : MediaFile} {c : Option Bytes} (hv : ¬ str ".vob" <:+ lower path) (hm : movie.kind dig lower = .ok k)
    (hp : isRar dig movie.path = false) (hc : check = none ∨ check = some movie) (h : vobCheck dig lower k path sig check = .ok c) :
    c = check.map (·.raw) := by
  rw [vobCheck_plain hv] at h
  rcases hc with rfl | rfl
  · simp only [checkFile, Except.ok.injEq] at h
    exact h.symm
  · have hd : movie.data dig = .ok movie.raw := by unfold MediaFile.data; rw [if_neg (by rw [hp]; simp)]
    unfold checkFile at h
    dsimp only at h
    rw [hm, ok_bind, if_neg (by simp), hd, ok_bind] at h
    simp only [pure_eq_ok, Except.ok.injEq] at h
    exact h.symm

/-- C81, streams (VOB, M2TS and others): with any name.  The movie may be of a kind that is not known. -/
theorem stream_commands_partial {dig : Nat → Bool} {lower : Str → Str} {app path srsPath : Str} {sample srs : Bytes} {fp : Option (Nat × Bytes)}
    {big ig : Bool} {check : Option MediaFile} {movie : MediaFile} (hk : MediaFile.kind dig lower ⟨path, sample, none⟩ = .ok .stream)
    (hm : movie.kind dig lower = .ok .stream ∨ movie.kind dig lower = .ok .unknown) (hp : isRar dig movie.path = false)
    (hc : check = none ∨ check = some movie) (h : srsMake dig lower app path sample fp big check = .ok srs) (hname : ¬ str ".mp3" <:+ srsPath)
    {k : Nat} (hfirst : FirstAt (sample.take 256) movie.raw k) (hocc : OccursAt sample movie.raw k) :
    Restored sample (srsRestore dig lower srsPath srs movie ig) := by
  obtain ⟨sig, c, hcc, hmk⟩ := made_by hk h
  have hd : movie.data dig = .ok movie.raw := by unfold MediaFile.data; rw [if_neg (by rw [hp]; simp)]
  have hcs : c = none ∨ c = some movie.raw := by
    unfold vobCheck at hcc
    simp only [bind_eq_ok] at hcc
    obtain ⟨b, _, hcc⟩ := hcc
    split at hcc
    · simp only [pure_eq_ok, Except.ok.injEq] at hcc
      exact Or.inl hcc.symm
    · rcases hc with rfl | rfl
      · simp only [checkFile, Except.ok.injEq] at hcc
        exact Or.inl hcc.symm
      · unfold checkFile at hcc
        dsimp only at hcc
        rcases hm with hm | hm
        · rw [hm, ok_bind, if_neg (by simp), hd, ok_bind] at hcc
          simp only [pure_eq_ok, Except.ok.injEq] at hcc
          exact Or.inr hcc.symm
        · rw [hm, ok_bind, if_pos (by simp), if_neg (by simp), if_neg (by simp), hd, ok_bind] at hcc
          simp only [pure_eq_ok, Except.ok.injEq] at hcc
          exact Or.inr hcc.symm
  have hne : sample ≠ [] := by
    rintro rfl
    have := (kind_known (by simp) hk).1
    simp at this
  refine restore_uses_reader_partial hk (hm.imp id fun hm => ⟨rfl, hm⟩) hp h (by simp) (by simp) hname ?_
  exact stream_sample_rebuilt_partial hmk hne hcs hfirst hocc

/-- C81, AVI. -/
theorem avi_commands_partial {dig : Nat → Bool} {lower : Str → Str} {app path srsPath mpath : Str} {srs : Bytes} {fp : Option (Nat × Bytes)}
    {big ig : Bool} {check : Option MediaFile} {minner : Option Bytes} {sample : List AviPart} {a b : Movie} {id data : Bytes} {pad : UInt8} {n0 : Nat}
    (hk : MediaFile.kind dig lower ⟨path, aviBytes sample, none⟩ = .ok .avi) (hv : ¬ str ".vob" <:+ lower path)
    (hm : MediaFile.kind dig lower ⟨mpath, aviBytes (Movie.parts (a ++ (.chunk id data pad, 0) :: b)), minner⟩ = .ok .avi) (hp : isRar dig mpath = false)
    (hc : check = none ∨ check = some ⟨mpath, aviBytes (Movie.parts (a ++ (.chunk id data pad, 0) :: b)), minner⟩)
    (h : srsMake dig lower app path (aviBytes sample) fp big check = .ok srs) (hname : ¬ str ".mp3" <:+ srsPath)
    (hplain : PlainAvi sample) (hdata : check ≠ none → ∀ n, (∃ p ∈ sample, p.track = some n) → trackBytes sample n ≠ [])
    (hcut : CutFrom sample (a ++ (.chunk id data pad, 0) :: b)) (hread : ReadFrom sample a ((.chunk id data pad, 0) :: b))
    (ht : (AviPart.chunk id data pad).track = some n0) (hd : data ≠ []) (hn0 : trackBytes sample n0 ≠ [])
    (hlen : (aviBytes (Movie.parts (a ++ (.chunk id data pad, 0) :: b))).length < 2 ^ 63) :
    Restored (aviBytes sample) (srsRestore dig lower srsPath srs ⟨mpath, aviBytes (Movie.parts (a ++ (.chunk id data pad, 0) :: b)), minner⟩ ig) := by
  obtain ⟨sig, c, hcc, hmk⟩ := made_by hk h
  have hcs := check_given hv hm hp hc hcc
  refine restore_uses_reader_partial hk (Or.inl hm) hp h (by simp) (by simp) hname ?_
  dsimp only at hmk ⊢
  rcases hc with rfl | rfl
  · subst hcs
    exact avi_cut_rebuilt_partial hplain hmk hcut hread ht hd hn0 hlen
  · subst hcs
    exact avi_checked_rebuilt_partial hplain hmk (hdata (by simp)) hcut hread ht hd hn0 hlen

/-- C81, MP4.  Only media data of 862416949 bytes (the letters 3gp5) may not come first. -/
theorem mp4_commands_partial {dig : Nat → Bool} {lower : Str → Str} {app path srsPath mpath : Str} {srs : Bytes} {fp : Option (Nat × Bytes)}
    {big ig : Bool} {check : Option MediaFile} {minner : Option Bytes} {before after tops : List MovTop} {form : MovForm} {media : Bytes}
    {tracks mtracks : List MovLayout}
    (hk : MediaFile.kind dig lower ⟨path, mp4Bytes before form media after, none⟩ = .ok .mp4) (hv : ¬ str ".vob" <:+ lower path)
    (hm : MediaFile.kind dig lower ⟨mpath, topBytes tops, minner⟩ = .ok .mp4) (hp : isRar dig mpath = false)
    (hc : check = none ∨ check = some ⟨mpath, topBytes tops, minner⟩)
    (h : srsMake dig lower app path (mp4Bytes before form media after) fp big check = .ok srs) (hname : ¬ str ".mp3" <:+ srsPath)
    (hstart : ¬ [0x33, 0x67, 0x70, 0x35, 0x6D, 0x64, 0x61, 0x74] <+: (mp4Bytes before form media after))
    (hplain : PlainMp4 before form media after tracks) (hid : ∀ t ∈ tracks, t.id < 2 ^ 16) (hbig : srs.length < 2 ^ 63)
    (hdata : check ≠ none → ∀ t ∈ tracks, layoutData (mp4Bytes before form media after) t ≠ [])
    (hmov : Mp4Movie tops mtracks)
    (hcut : ∀ t ∈ tracks, ∃ u ∈ mtracks, u.id = t.id ∧ CutMp4 (layoutData (mp4Bytes before form media after) t) (topBytes tops) u) :
    Restored (mp4Bytes before form media after) (srsRestore dig lower srsPath srs ⟨mpath, topBytes tops, minner⟩ ig) := by
  obtain ⟨sig, c, hcc, hmk⟩ := made_by hk h
  have hcs := check_given hv hm hp hc hcc
  refine restore_uses_reader_partial hk (Or.inl hm) hp h (by simp) (fun _ => hstart) hname ?_
  dsimp only at hmk ⊢
  rcases hc with rfl | rfl
  · subst hcs
    exact mp4_cut_rebuilt_partial hplain hid hmk hbig hmov hcut ig
  · subst hcs
    exact mp4_checked_rebuilt_partial hplain hid (hdata (by simp)) hmov hcut hmk hbig ig

/-- C81, WMV. -/
theorem wmv_commands_partial {dig : Nat → Bool} {lower : Str → Str} {app path srsPath mpath : Str} {srs : Bytes} {fp : Option (Nat × Bytes)}
    {big ig : Bool} {check : Option MediaFile} {minner : Option Bytes} {sample movie : WmvFile}
    (hk : MediaFile.kind dig lower ⟨path, sample.bytes, none⟩ = .ok .wmv) (hv : ¬ str ".vob" <:+ lower path)
    (hm : MediaFile.kind dig lower ⟨mpath, movie.bytes, minner⟩ = .ok .wmv) (hp : isRar dig mpath = false)
    (hc : check = none ∨ check = some ⟨mpath, movie.bytes, minner⟩)
    (h : srsMake dig lower app path sample.bytes fp big check = .ok srs) (hname : ¬ str ".mp3" <:+ srsPath)
    (hok : sample.Ok) (hl : sample.Lucky) (hs : srs.length < 2 ^ 63) (hcut : WmvCutFrom sample movie) :
    Restored sample.bytes (srsRestore dig lower srsPath srs ⟨mpath, movie.bytes, minner⟩ ig) := by
  obtain ⟨sig, c, hcc, hmk⟩ := made_by hk h
  have hcs := check_given hv hm hp hc hcc
  refine restore_uses_reader_partial hk (Or.inl hm) hp h (by simp) (by simp) hname ?_
  dsimp only at hmk ⊢
  rcases hc with rfl | rfl
  · subst hcs
    exact wmv_cut_rebuilt_partial hok hl hs hmk hcut
  · subst hcs
    exact wmv_checked_rebuilt_partial hok hl hs hcut hmk

/-- C81, MKV. -/
theorem mkv_commands_partial {dig : Nat → Bool} {lower : Str → Str} {app path srsPath mpath : Str} {srs : Bytes} {fp : Option (Nat × Bytes)}
    {big ig : Bool} {check : Option MediaFile} {minner : Option Bytes} {lead info media mlead minfo mmedia : List MkvTop} {seg mseg : Bytes}
    {f : Option FileData} {ts : MkvTracks}
    (hk : MediaFile.kind dig lower ⟨path, mkvFile (lead ++ .part (.enter segmentId seg) :: (info ++ media)), none⟩ = .ok .mkv)
    (hv : ¬ str ".vob" <:+ lower path)
    (hm : MediaFile.kind dig lower ⟨mpath, mkvFile (mlead ++ .part (.enter segmentId mseg) :: (minfo ++ mmedia)), minner⟩ = .ok .mkv)
    (hp : isRar dig mpath = false)
    (hc : check = none ∨ check = some ⟨mpath, mkvFile (mlead ++ .part (.enter segmentId mseg) :: (minfo ++ mmedia)), minner⟩)
    (h : srsMake dig lower app path (mkvFile (lead ++ .part (.enter segmentId seg) :: (info ++ media))) fp big check = .ok srs)
    (hname : ¬ str ".mp3" <:+ srsPath) (hplain : PlainMkv lead seg info media) (hmov : PlainMovie mlead mseg minfo mmedia)
    (hn : ∀ n, HasTrack (mkvFine (lead ++ .part (.enter segmentId seg) :: (info ++ media))) n → n < 2 ^ 16)
    (hl : mkvLoadSrs srs = .ok (f, ts))
    (hdata : ∀ b, .block b ∈ mkvFine media → mkvTrackData (mkvFine (lead ++ .part (.enter segmentId seg) :: (info ++ media))) b.track ≠ [])
    (hcut : ∀ n t, movGet ts n = some t → t.sig ≠ [] →
      MkvCut (mkvFine (mlead ++ .part (.enter segmentId mseg) :: (minfo ++ mmedia)))
        (mkvFine (lead ++ .part (.enter segmentId seg) :: (info ++ media))) n t.sig)
    (hatt : ∀ x ∈ attachments none (mkvFine (lead ++ .part (.enter segmentId seg) :: (info ++ media))),
      x ∈ attachments none (mkvFine (mlead ++ .part (.enter segmentId mseg) :: (minfo ++ mmedia)))) :
    Restored (mkvFile (lead ++ .part (.enter segmentId seg) :: (info ++ media)))
      (srsRestore dig lower srsPath srs ⟨mpath, mkvFile (mlead ++ .part (.enter segmentId mseg) :: (minfo ++ mmedia)), minner⟩ ig) := by
  obtain ⟨sig, c, hcc, hmk⟩ := made_by hk h
  have hcs := check_given hv hm hp hc hcc
  refine restore_uses_reader_partial hk (Or.inl hm) hp h (by simp) (by simp) hname ?_
  dsimp only at hmk ⊢
  rcases hc with rfl | rfl
  · subst hcs
    refine mkv_cut_restored_partial hplain hmov hn hmk hl ?_ hatt
    rintro n t hg ⟨b, hb, rfl⟩
    obtain ⟨⟨ts', hl', hr⟩, _⟩ := mkv_strip_rebuild_partial hplain hn hmk
    rw [hl, Except.ok.injEq, Prod.mk.injEq] at hl'
    rw [← hl'.2] at hr
    exact hcut _ t hg (sig_of_data (hr.known _ _ hg).2.2.1 (hdata b hb))
  · subst hcs
    exact mkv_checked_restored_partial hplain hmov hn hmk hl hdata hcut hatt

/-- C81, FLAC: the movie is any FLAC file with the same audio frames. -/
theorem flac_commands_partial {dig : Nat → Bool} {lower : Str → Str} {app path srsPath : Str} {srs frames : Bytes} {fp : Option (Nat × Bytes)}
    {big ig : Bool} {check : Option MediaFile} {movie : MediaFile} {metas : List FlacMeta}
    (hk : MediaFile.kind dig lower ⟨path, flacBytes metas frames, none⟩ = .ok .flac)
    (hm : movie.kind dig lower = .ok .flac) (hp : isRar dig movie.path = false)
    (h : srsMake dig lower app path (flacBytes metas frames) fp big check = .ok srs) (hname : ¬ str ".mp3" <:+ srsPath)
    (hplain : PlainFlac metas frames) (hfp : ∀ d p, fp = some (d, p) → 8 + p.length < 2 ^ 24)
    (hsame : FlacWithFrames movie.raw frames) (hl : 128 ≤ movie.raw.length) :
    Restored (flacBytes metas frames) (srsRestore dig lower srsPath srs movie ig) := by
  obtain ⟨sig, c, hcc, hmk⟩ := made_by hk h
  refine restore_uses_reader_partial hk (Or.inl hm) hp h (by simp) (by simp) hname ?_
  exact flac_rebuilt_partial hplain hfp hmk hsame hl

/-- C81, MP3 with a usual fingerprint: the other file is any with the same sound. -/
theorem mp3_commands_partial {dig : Nat → Bool} {lower : Str → Str} {app path srsPath mpath : Str} {srs sound v1 pr : Bytes} {front front' : List Bytes}
    {t' : Tags} {du : Nat} {big ig : Bool} {check : Option MediaFile} {minner : Option Bytes}
    (hk : MediaFile.kind dig lower ⟨path, mp3File front sound { id3v1 := v1 }, none⟩ = .ok .mp3)
    (hm : MediaFile.kind dig lower ⟨mpath, mp3File front' sound t', minner⟩ = .ok .mp3) (hp : isRar dig mpath = false)
    (h : srsMake dig lower app path (mp3File front sound { id3v1 := v1 }) (some (du, pr)) big check = .ok srs)
    (hs : SoundIn front sound) (hs' : SoundIn front' sound) (ht : Tagged front sound { id3v1 := v1 }) (ht' : Tagged front' sound t')
    (hdu : du < 2 ^ 32) (hpr : 128 ≤ pr.length) (hpr2 : pr.length < 2 ^ 31)
    (hw : ∀ k, ¬ OccursAt [0x54, 0x41, 0x47] pr k ∧ ¬ OccursAt mLYRICS200 pr k ∧ ¬ OccursAt mLYRICSEND pr k ∧ ¬ OccursAt mAPETAGEX pr k) :
    Restored (mp3File front sound { id3v1 := v1 }) (srsRestore dig lower srsPath srs ⟨mpath, mp3File front' sound t', minner⟩ ig) := by
  obtain ⟨sig, c, hcc, hmk⟩ := made_by hk h
  unfold Restored
  rw [restore_mp3_partial ht hs hk hm hp h, mp3_usual_rebuilt hs hs' ht ht' hdu hpr hpr2 hw hmk]

/-- C81 for streams, full statement: the sample is anywhere in the movie. -/
def stream_commands : Prop :=
  ∀ (dig : Nat → Bool) (lower : Str → Str) (app path srsPath : Str) (sample srs : Bytes) (big ig : Bool) (movie : MediaFile),
    MediaFile.kind dig lower ⟨path, sample, none⟩ = .ok .stream → movie.kind dig lower = .ok .stream → isRar dig movie.path = false →
    srsMake dig lower app path sample none big none = .ok srs → str ".srs" <:+ srsPath → (∃ k, OccursAt sample movie.raw k) →
    Restored sample (srsRestore dig lower srsPath srs movie ig)

set_option maxRecDepth 100000 in
/-- C81, violation: a sample of 256 zero bytes and a one is not rebuilt when the movie has one more zero byte before it. -/
theorem stream_commands_violated : ¬ stream_commands := by
  have key : (match srsMake exDigit id (str "app") (str "s.vob") zerosSample none false none with
      | .error _ => false
      | .ok srs => match srsRestore exDigit id (str "s.srs") srs ⟨str "m.vob", 0 :: zerosSample, none⟩ false with
        | some (.ok r) => r.good == false
        | _ => true) = true := by decide +kernel
  intro h
  cases hc : srsMake exDigit id (str "app") (str "s.vob") zerosSample none false none with
  | error e => rw [hc] at key; simp at key
  | ok srs =>
    have := h exDigit id (str "app") (str "s.vob") (str "s.srs") zerosSample srs false false ⟨str "m.vob", 0 :: zerosSample, none⟩
      (by decide +kernel) (by decide +kernel) (by decide +kernel) hc (by decide) ⟨1, [0], [], by simp, rfl⟩
    rw [hc] at key
    unfold Restored at this
    dsimp only at key
    rw [this] at key
    simp at key

/-! ### Files that meet the conditions -/

/-- Both commands, with an SRS that is short. -/
def madeShort (path : Str) (sample : Bytes) (fp : Option (Nat × Bytes)) (check : Option MediaFile) : Bool :=
  match srsMake exDigit id (str "app") path sample fp false check with
  | .ok srs => decide (srs.length < 2 ^ 63)
  | .error _ => false

theorem made_short {path : Str} {sample : Bytes} {fp : Option (Nat × Bytes)} {check : Option MediaFile} (h : madeShort path sample fp check = true) :
    ∃ srs, srsMake exDigit id (str "app") path sample fp false check = .ok srs ∧ srs.length < 2 ^ 63 := by
  unfold madeShort at h
  split at h
  · rename_i srs hs
    exact ⟨srs, hs, by simpa using h⟩
  · simp at h

set_option maxRecDepth 100000 in
example (c : Bool) : ∃ srs, srsMake exDigit id (str "app") (str "/x/s.vob") [1, 2, 3, 4, 5, 6, 7, 8, 9, 10, 11, 12, 13, 14, 15] none false
      (if c then some ⟨str "/x/m.vob", [9, 9, 1, 2, 3, 4, 5, 6, 7, 8, 9, 10, 11, 12, 13, 14, 15, 1], none⟩ else none) = .ok srs ∧
    Restored [1, 2, 3, 4, 5, 6, 7, 8, 9, 10, 11, 12, 13, 14, 15]
      (srsRestore exDigit id (str "s.srs") srs ⟨str "/x/m.vob", [9, 9, 1, 2, 3, 4, 5, 6, 7, 8, 9, 10, 11, 12, 13, 14, 15, 1], none⟩ false) := by
  obtain ⟨srs, hs, _⟩ := made_short (path := str "/x/s.vob") (sample := [1, 2, 3, 4, 5, 6, 7, 8, 9, 10, 11, 12, 13, 14, 15]) (fp := none)
    (check := if c then some ⟨str "/x/m.vob", [9, 9, 1, 2, 3, 4, 5, 6, 7, 8, 9, 10, 11, 12, 13, 14, 15, 1], none⟩ else none)
    (by cases c <;> decide +kernel)
  refine ⟨srs, hs, stream_commands_partial (k := 2) (by decide +kernel) (Or.inl (by decide +kernel)) (by decide +kernel) ?_ hs (by decide)
    ⟨⟨[9, 9], [1], by decide, rfl⟩, ?_⟩ ⟨[9, 9], [1], by decide, rfl⟩⟩
  · cases c <;> simp
  · intro j hj
    apply Decidable.byContradiction
    intro h
    have : j = 0 ∨ j = 1 := by omega
    rw [occursAt_iff] at hj
    rcases this with rfl | rfl <;> simp at hj

set_option maxRecDepth 100000 in
example (c ig : Bool) : ∃ srs, srsMake exDigit id (str "app") (str "/x/s.avi") (aviBytes aviExample) none false
      (if c then some ⟨str "/x/m.avi", aviBytes (Movie.parts (moviePre ++ moviePost)), none⟩ else none) = .ok srs ∧
    Restored (aviBytes aviExample) (srsRestore exDigit id (str "s.srs") srs ⟨str "/x/m.avi", aviBytes (Movie.parts (moviePre ++ moviePost)), none⟩ ig) := by
  obtain ⟨srs, hs, _⟩ := made_short (path := str "/x/s.avi") (sample := aviBytes aviExample) (fp := none)
    (check := if c then some ⟨str "/x/m.avi", aviBytes (Movie.parts (moviePre ++ moviePost)), none⟩ else none) (by cases c <;> decide +kernel)
  refine ⟨srs, hs, avi_commands_partial (by decide +kernel) (by decide) (by decide +kernel) (by decide +kernel) (by cases c <;> simp [moviePost]) hs (by decide)
    aviExample_plain (fun _ n hn => ?_) movie_cut movie_read (n0 := 0) (by decide) (by decide) (by decide) (by decide)⟩
  have := track_small (k := 2) (by decide) hn
  match n, this with
  | 0, _ => decide
  | 1, _ => decide

/-- The example sample, read as a movie. -/
theorem example_mp4_self : Mp4Movie (Mp4Example.before ++ .box .narrow mdatType Mp4Example.media :: Mp4Example.after) Mp4Example.tracks where
  ok := example_plain.ok
  tables := example_plain.tables
  some := by decide +kernel
  samples := by decide +kernel
  ordered := by decide +kernel
  size := by decide +kernel

set_option maxRecDepth 100000 in
example (c ig : Bool) : ∃ srs, srsMake exDigit id (str "app") (str "/x/s.mp4") Mp4Example.file none false
      (if c then some ⟨str "/x/m.mp4", Mp4Example.file, none⟩ else none) = .ok srs ∧
    Restored Mp4Example.file (srsRestore exDigit id (str "s.srs") srs ⟨str "/x/m.mp4", Mp4Example.file, none⟩ ig) := by
  obtain ⟨srs, hs, hl⟩ := made_short (path := str "/x/s.mp4") (sample := Mp4Example.file) (fp := none)
    (check := if c then some ⟨str "/x/m.mp4", Mp4Example.file, none⟩ else none) (by cases c <;> decide +kernel)
  exact ⟨srs, hs, mp4_commands_partial (mpath := str "/x/m.mp4") (minner := none) (by decide +kernel) (by decide) (by decide +kernel) (by decide +kernel)
    (by cases c <;> simp [Mp4Example.file, mp4Bytes]) hs (by decide) (by decide +kernel) example_plain (by decide) hl (fun _ => by decide +kernel)
    example_mp4_self (mp4_self_cut example_mp4_self)⟩

set_option maxRecDepth 100000 in
example (c ig : Bool) : ∃ srs, srsMake exDigit id (str "app") (str "/x/s.wmv") wmvCut.bytes none false
      (if c then some ⟨str "/x/m.wmv", wmvMovie.bytes, none⟩ else none) = .ok srs ∧
    Restored wmvCut.bytes (srsRestore exDigit id (str "s.srs") srs ⟨str "/x/m.wmv", wmvMovie.bytes, none⟩ ig) := by
  obtain ⟨srs, hs, hl⟩ := made_short (path := str "/x/s.wmv") (sample := wmvCut.bytes) (fp := none)
    (check := if c then some ⟨str "/x/m.wmv", wmvMovie.bytes, none⟩ else none) (by cases c <;> decide +kernel)
  exact ⟨srs, hs, wmv_commands_partial (by decide +kernel) (by decide) (by decide +kernel) (by decide +kernel) (by cases c <;> simp) hs (by decide)
    wmvCut_from.1 wmvCut_from.2.1 hl wmvCut_from.2.2⟩

/-- The tracks that are read from an SRS are those of the example. -/
def loadedAs (sample : List MkvPart) (r : Res Bytes) : Bool :=
  match r with
  | .error _ => false
  | .ok srs => match mkvLoadSrs srs with
    | .error _ => false
    | .ok (_, ts) => ts.all fun x => (x.1 == 1 || x.1 == 2) && x.2.sig == mkvTrackData sample x.1

theorem loaded_as {sample : List MkvPart} {r : Res Bytes} (h : loadedAs sample r = true) :
    ∃ srs f ts, r = .ok srs ∧ mkvLoadSrs srs = .ok (f, ts) ∧ ∀ n t, movGet ts n = some t → (n = 1 ∨ n = 2) ∧ t.sig = mkvTrackData sample n := by
  unfold loadedAs at h
  split at h
  · simp at h
  · rename_i srs
    split at h
    · simp at h
    · rename_i f ts hl
      refine ⟨srs, f, ts, rfl, hl, fun n t hg => ?_⟩
      have := List.all_eq_true.1 h _ (movGet_eq_some hg)
      simpa using this

set_option maxRecDepth 100000 in
example (c ig : Bool) : ∃ srs, srsMake exDigit id (str "app") (str "/x/s.mkv") MkvExample.file none false
      (if c then some ⟨str "/x/m.mkv", MkvExample.movie, none⟩ else none) = .ok srs ∧
    Restored MkvExample.file (srsRestore exDigit id (str "s.srs") srs ⟨str "/x/m.mkv", MkvExample.movie, none⟩ ig) := by
  obtain ⟨srs, f, ts, hs, hl, ht⟩ := loaded_as (sample := mkvFine MkvExample.tops) (r := srsMake exDigit id (str "app") (str "/x/s.mkv") MkvExample.file none false
      (if c then some ⟨str "/x/m.mkv", MkvExample.movie, none⟩ else none)) (by cases c <;> decide +kernel)
  refine ⟨srs, hs, mkv_commands_partial (mpath := str "/x/m.mkv") (minner := none) (by decide +kernel) (by decide) (by decide +kernel) (by decide +kernel)
    (by cases c <;> simp [MkvExample.movie, MkvExample.movieTops]) hs (by decide) example_mkv example_mkv_movie
    (fun n h => by rcases example_tracks h with rfl | rfl <;> decide) hl ?_ ?_ (by decide +kernel)⟩
  · intro b hb
    rcases example_block ⟨b, hb, rfl⟩ with h | h <;> rw [h] <;> decide +kernel
  · intro n t hg _
    obtain ⟨h1, h2⟩ := ht n t hg
    refine example_mkv_cut h1 ?_
    rw [h2]
    refine ⟨List.prefix_rfl, fun _ => rfl, ?_⟩
    rcases h1 with rfl | rfl <;> decide +kernel

set_option maxRecDepth 100000 in
example (ig : Bool) : ∃ srs, srsMake exDigit id (str "app") (str "/x/a.flac") (flacBytes exMetas exFrames) (some (215, [65, 81])) false none = .ok srs ∧
    Restored (flacBytes exMetas exFrames) (srsRestore exDigit id (str "a.srs") srs ⟨str "/x/b.flac", exMain, none⟩ ig) := by
  obtain ⟨srs, hs, hl⟩ := made_short (path := str "/x/a.flac") (sample := flacBytes exMetas exFrames) (fp := some (215, [65, 81]))
    (check := none) (by decide +kernel)
  exact ⟨srs, hs, flac_commands_partial (by decide +kernel) (by decide +kernel) (by decide +kernel) hs (by decide) exPlain (by simp) exMain_ok (by decide)⟩

set_option maxRecDepth 100000 in
example (ig : Bool) : ∃ srs, srsMake exDigit id (str "app") (str "/x/a.mp3") (mp3File (List.replicate 1 exFront) (exSound 300) { id3v1 := exV1 })
      (some (215, List.replicate 200 65)) false none = .ok srs ∧
    Restored (mp3File (List.replicate 1 exFront) (exSound 300) { id3v1 := exV1 })
      (srsRestore exDigit id (str "a.srs") srs ⟨str "/x/b.mp3", mp3File (List.replicate 2 exFront) (exSound 300) { id3v1 := exV1 }, none⟩ ig) := by
  obtain ⟨ins, h, _⟩ := mp3_create_succeeds (exTagged 1 300) (exSound_ok 300) (app := str "app") (name := basename (str "/x/a.mp3"))
    (a := [97, 112, 112]) (n := [97, 46, 109, 112, 51]) (some (215, List.replicate 200 65)) (by decide) (by decide) (by decide) (by decide)
    (by rw [exTagged_length, show (Tags.bytes { id3v1 := exV1 }).length = 128 from exV1_ok.1]; decide)
  have hk : MediaFile.kind exDigit id ⟨str "/x/a.mp3", mp3File (List.replicate 1 exFront) (exSound 300) { id3v1 := exV1 }, none⟩ = .ok .mp3 := by
    decide +kernel
  have hs : srsMake exDigit id (str "app") (str "/x/a.mp3") (mp3File (List.replicate 1 exFront) (exSound 300) { id3v1 := exV1 })
      (some (215, List.replicate 200 65)) false none = .ok (mp3File (List.replicate 1 exFront) ins { id3v1 := exV1 }) := by
    have h' := h
    unfold srsMp3Create at h'
    split at h'
    · simp at h'
    simp only [bind_eq_ok] at h'
    obtain ⟨⟨x, ts⟩, hx, _⟩ := h'
    unfold srsMake
    rw [hk, ok_bind]
    dsimp only
    rw [hx, ok_bind]
    dsimp only
    rw [vobCheck_plain (by decide)]
    exact h
  exact ⟨_, hs, mp3_commands_partial hk (by decide +kernel) (by decide +kernel) hs (exSound_ok 300) (exSound_ok 300) (exTagged 1 300) (exTagged 2 300)
    (by decide) (by rw [List.length_replicate]; decide) (by rw [List.length_replicate]; decide) exPrint_words⟩

end Rescene.Props
