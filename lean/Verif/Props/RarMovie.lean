import Verif.Model.RarMovie
import Verif.Props.Streams
import Verif.Props.SrsMain
import Verif.Lemmas.Volumes
/-
C103: a movie in stored RAR volumes is as good as the movie: the kind, and what is rebuilt with it.
-/
namespace Rescene.Props
open Rescene Rescene.Spec

/-- A name of a movie or of music. -/
def IsMedia (name : Str) : Prop :=
  ∃ e ∈ [str ".mp4", str ".m4v", str ".avi", str ".mkv", str ".wmv", str ".vob", str ".m2ts", str ".ts", str ".mpeg", str ".mpg", str ".m2v",
    str ".m2p", str ".mp3", str ".flac"], e <:+ name

/-- The names in the headers of a volume, those of services (comments, recovery records) included. -/
def headerNames (blocks : List Block) : List Str :=
  blocks.filterMap fun b =>
    match b.kind with
    | .packed f => some f.name
    | .newSub f _ => some f.name
    | _ => none

/-- The movie in a volume set: the first file of the first volume with the name of a movie; when
there is none, the file that all volumes begin with. -/
def TheMovie (first : List Block) (l : List (Bytes × List Block)) (asked name : Str) : Prop :=
  (asked = name ∧ IsMedia name ∧ ∃ pre post, headerNames first = pre ++ name :: post ∧ ∀ n ∈ pre, ¬ IsMedia n) ∨
    (asked = [] ∧ (∀ n ∈ headerNames first, ¬ IsMedia n) ∧ ∀ v ∈ l, ∀ n, firstFile v.2 = some n → n = name)

/-- A movie `d` in stored RAR volumes: `l` are the volumes with their headers, `asked` is the name
that the program finds (nothing when no name is one of a movie). -/
structure MovieInRars (dig : Nat → Bool) (fs : Str → Option Bytes) (path asked name : Str) (l : List (Bytes × List Block)) (d : Bytes) : Prop where
  rar : isRar dig path = true
  set : VolumeSet dig fs false path l
  start : ∃ raw blocks t b, l = (raw, blocks) :: t ∧ mRAR4 <+: raw ∧
    blocks.find? (fun b => b.btype == 0x74) = some b ∧ hasFlag b.flags 1 = false ∧ TheMovie blocks l asked name
  named : name ≠ [] ∧ 0x2F ∉ name
  data : d = (l.flatMap fun v => partsIn v.1 name v.2).flatten
  full : ∃ p t, (l.flatMap fun v => partsIn v.1 name v.2) = p :: t ∧ p ≠ []

theorem media_iff (n : Str) : (mediaExtensions.any fun e => e.isSuffixOf n) = true ↔ IsMedia n := by
  unfold mediaExtensions streamExtensions IsMedia
  simp only [List.any_eq_true, List.isSuffixOf_iff_suffix, List.cons_append, List.nil_append]

theorem archivedName_of {first : List Block} {l : List (Bytes × List Block)} {asked name : Str} (h : TheMovie first l asked name) :
    archivedName first = asked := by
  have hl : listFiles first = headerNames first := rfl
  unfold archivedName
  rw [hl]
  rcases h with ⟨rfl, hm, pre, post, he, hpre⟩ | ⟨rfl, hn, _⟩
  · rw [he, List.find?_append, List.find?_eq_none.mpr (fun n hn hh => hpre n hn ((media_iff n).mp hh)), List.find?_cons, (media_iff _).mpr hm]
    rfl
  · rw [List.find?_eq_none.mpr (fun n hh h => hn n hh ((media_iff n).mp h))]
    rfl

/-! ### The empty name is no name -/

theorem rsBlocks_empty (archive : Bytes) (compressed : Bool) (blocks : List Block) : ∀ vols len,
    (rsBlocks archive compressed (some []) vols len blocks).map (·.2) = (rsBlocks archive compressed none vols len blocks).map (·.2) := by
  induction blocks with
  | nil => intro vols len; rfl
  | cons b l ih =>
    intro vols len
    rw [rsBlocks, rsBlocks]
    by_cases ht : b.btype = 0x74
    · rw [if_pos ht, if_pos ht]
      cases hk : b.kind <;> simp
    · rw [if_neg ht, if_neg ht]
      exact ih vols len

theorem rsProcess_empty (archive : Bytes) (compressed : Bool) (vols : List Vol) (len : Nat) :
    rsProcess archive (some []) compressed vols len = rsProcess archive none compressed vols len := by
  unfold rsProcess
  cases hr : readAll archive with
  | error e => rfl
  | ok blocks =>
    have := rsBlocks_empty archive compressed blocks vols len
    simp only [Option.map_some, List.map_nil, Option.map_none, ok_bind]
    cases h1 : rsBlocks archive compressed (some []) vols len blocks <;> cases h2 : rsBlocks archive compressed none vols len blocks <;>
      rw [h1, h2] at this <;> simp [Except.map] at this ⊢
    · exact this
    · rename_i a b
      obtain ⟨a1, a2, a3⟩ := a
      obtain ⟨b1, b2, b3⟩ := b
      simp only [Prod.mk.injEq] at this
      simp [this.1, this.2]

theorem rsVolumes_empty (dig : Nat → Bool) (fs : Str → Option Bytes) (compressed : Bool) (fuel : Nat) : ∀ path vols len,
    rsVolumes dig fs (some []) compressed fuel path vols len = rsVolumes dig fs none compressed fuel path vols len := by
  induction fuel with
  | zero => intro _ _ _; rfl
  | succ fuel ih =>
    intro path vols len
    rw [rsVolumes, rsVolumes]
    cases fs path with
    | none => rfl
    | some a => simp only [rsProcess_empty, ih]

theorem rsOpen_empty (dig : Nat → Bool) (fs : Str → Option Bytes) (fuel : Nat) (path : Str) (middle compressed : Bool) :
    rsOpen dig fs fuel path (some []) middle compressed = rsOpen dig fs fuel path none middle compressed := by
  unfold rsOpen
  simp only [rsVolumes_empty]

/-! ### What is read -/

theorem run_read {s : RStream} {d : Bytes} (h : ∀ ops, s.run ops = .ok (fileRun regular d 0 ops)) (n : Int) :
    ∃ s', s.read n = .ok (if n < 0 then d else d.take n.toNat, s') := by
  have := h [.read n]
  simp only [RStream.run, RStream.step, bind_eq_ok, pure_eq_ok, fileRun, fileStep, List.drop_zero] at this
  obtain ⟨⟨o, s'⟩, ⟨⟨b, s''⟩, hr, ho⟩, r, hr', he⟩ := this
  simp only [Except.ok.injEq, Prod.mk.injEq] at ho
  obtain ⟨rfl, rfl⟩ := ho
  simp only [Except.ok.injEq] at hr'
  subst hr'
  simp only [Except.ok.injEq, List.cons.injEq, FileOut.bytes.injEq, and_true] at he
  exact ⟨s'', by rw [hr, he]⟩

theorem slash_same {name : Str} (h : 0x2F ∉ name) : (name.map fun c => if c = 0x2F then 0x5C else c) = name := by
  conv => rhs; rw [← List.map_id name]
  refine List.map_congr_left fun c hc => ?_
  have hne : c ≠ 0x2F := fun hh => h (by rw [← hh]; exact hc)
  rw [if_neg hne]
  rfl

theorem movie_stream {dig : Nat → Bool} {fs : Str → Option Bytes} {path asked name : Str} {l : List (Bytes × List Block)} {d : Bytes}
    (h : MovieInRars dig fs path asked name l d) {fuel : Nat} (hf : l.length < fuel) (n : Int) :
    rarRead dig fs fuel path (some asked) n = .ok (if n < 0 then d else d.take n.toNat) := by
  obtain ⟨raw, blocks, t, b, hl, _, hb, hfl, hm⟩ := h.start
  obtain ⟨p, ps, hp, hpe⟩ := h.full
  have key : ∀ a, Asked a name l → ∃ s, rsOpen dig fs fuel path a false false = .ok s ∧ ∀ ops, s.run ops = .ok (fileRun regular d 0 ops) := by
    intro a ha
    rw [h.data]
    refine rar_stream_partial dig fs false false a name path l h.set ha (Or.inr ⟨(raw, blocks), t, b, hl, hb, hfl⟩) _ rfl ?_ ?_ fuel hf
    · rw [hp]; simp
    · rw [hp]
      intro hh
      simp only [List.head?_cons, Option.some.injEq] at hh
      exact absurd hh hpe
  have hopen : ∃ s, rsOpen dig fs fuel path (some asked) false false = .ok s ∧ ∀ ops, s.run ops = .ok (fileRun regular d 0 ops) := by
    rcases hm with ⟨rfl, _⟩ | ⟨rfl, _, hfirst⟩
    · exact key _ ⟨h.named.1, Or.inl ⟨asked, rfl, (slash_same h.named.2).symm⟩⟩
    · rw [rsOpen_empty]
      exact key _ ⟨h.named.1, Or.inr ⟨rfl, hfirst⟩⟩
  obtain ⟨s, hs, hrun⟩ := hopen
  obtain ⟨s', hr⟩ := run_read hrun n
  unfold rarRead
  rw [hs, ok_bind, hr, ok_bind]
  rfl

/-- Without a name, the movie is read when all volumes begin with it. -/
theorem open_main_movie {dig : Nat → Bool} {fs : Str → Option Bytes} {path asked name : Str} {l : List (Bytes × List Block)} {d : Bytes}
    (h : MovieInRars dig fs path asked name l d) {fuel : Nat} (hf : l.length < fuel) (hfirst : ∀ v ∈ l, ∀ n, firstFile v.2 = some n → n = name) :
    openMain dig fs fuel path = .ok d := by
  obtain ⟨raw, blocks, t, b, hl, _, hb, hfl, hm⟩ := h.start
  obtain ⟨p, ps, hp, hpe⟩ := h.full
  have hs : ∃ s, rsOpen dig fs fuel path none false false = .ok s ∧ ∀ ops, s.run ops = .ok (fileRun regular d 0 ops) := by
    rw [h.data]
    refine rar_stream_partial dig fs false false none name path l h.set ⟨h.named.1, Or.inr ⟨rfl, hfirst⟩⟩
      (Or.inr ⟨(raw, blocks), t, b, hl, hb, hfl⟩) _ rfl ?_ ?_ fuel hf
    · rw [hp]; simp
    · rw [hp]
      intro hh
      simp only [List.head?_cons, Option.some.injEq] at hh
      exact absurd hh hpe
  obtain ⟨s, hs, hrun⟩ := hs
  obtain ⟨s', hr⟩ := run_read hrun (-1)
  unfold openMain rarRead
  rw [if_pos h.rar, hs, ok_bind, hr, ok_bind]
  rfl

/-! ### The kind -/

theorem pre_take {p d : Bytes} {n : Nat} (h : p.length ≤ n) : (p <+: d.take n) ↔ (p <+: d) := by
  rw [List.prefix_take_iff]
  exact ⟨fun h => h.1, fun hh => ⟨hh, h⟩⟩

theorem sync_take {d : Bytes} {n : Nat} (h : 2 ≤ n) : isSync (d.take n) = isSync d := by
  obtain ⟨n, rfl⟩ : ∃ k, n = k + 2 := ⟨n - 2, by omega⟩
  rcases d with _ | ⟨a, _ | ⟨b, r⟩⟩ <;> rfl

/-- Eight bytes are enough, unless there is an ID3v2 tag. -/
theorem markerKind_take {lower : Str → Str} {path : Str} {file d : Bytes} {n : Nat} (hn : 8 ≤ n) (hd : 2 ≤ d.length) (hi : ¬ mID3 <+: d) :
    markerKind lower path file (d.take n) =
      if mMKV <+: d then .ok .mkv
      else if mRIFF <+: d then if str ".mp3" <:+ path then .ok .mp3 else .ok .avi
      else if mFtyp <+: d.drop 4 ∨ m3gp5 <+: d then .ok .mp4
      else if mWMV <+: d then .ok .wmv
      else if mFLaC <+: d then .ok .flac
      else if mStreamSrs <+: d then .ok .stream
      else if mM2tsSrs <+: d then .ok .m2ts
      else if mSRSF <+: d then .ok .mp3
      else if isSync d then .ok .mp3
      else if 128 ≤ file.length ∧ readAt file (file.length - 128) 3 = mTAG then .ok .mp3
      else if streamExtensions.any (fun e => e.isSuffixOf (lower path)) then .ok .stream
      else .ok .unknown := by
  unfold markerKind
  rw [List.drop_take]
  simp only [pre_take (show mMKV.length ≤ n by simp [mMKV]; omega), pre_take (show mRIFF.length ≤ n by simp [mRIFF]; omega),
    pre_take (show mFtyp.length ≤ n - 4 by simp [mFtyp]; omega), pre_take (show m3gp5.length ≤ n by simp [m3gp5]; omega),
    pre_take (show mWMV.length ≤ n by simp [mWMV]; omega), pre_take (show mFLaC.length ≤ n by simp [mFLaC]; omega),
    pre_take (show mStreamSrs.length ≤ n by simp [mStreamSrs]; omega), pre_take (show mM2tsSrs.length ≤ n by simp [mM2tsSrs]; omega),
    pre_take (show mID3.length ≤ n by simp [mID3]; omega), pre_take (show mSRSF.length ≤ n by simp [mSRSF]; omega),
    sync_take (show 2 ≤ n by omega), if_neg hi, if_neg (show ¬ (d.take n).length < 2 by rw [List.length_take]; omega)]

theorem info_movie {dig : Nat → Bool} {lower : Str → Str} {fs : Str → Option Bytes} {path asked name : Str} {l : List (Bytes × List Block)} {d : Bytes}
    (h : MovieInRars dig fs path asked name l d) {fuel : Nat} (hf : l.length < fuel) :
    ∃ raw, fs path = some raw ∧ (∃ bl t, l = (raw, bl) :: t) ∧
      fileTypeInfo dig lower fs fuel path = (markerKind lower path raw (d.take 8)).map (·, asked) := by
  obtain ⟨raw, blocks, t, b, hl, hmark, hb, hfl, hm⟩ := h.start
  have hset := h.set
  rw [hl] at hset
  cases hset with
  | more hfs ho hr _ _ _ _ =>
    refine ⟨raw, hfs, ⟨blocks, t, hl⟩, ?_⟩
    have h20 : 20 ≤ raw.length := by
      unfold openReader at ho
      split at ho
      · simp at ho
      · omega
    unfold fileTypeInfo movieName
    rw [hfs]
    dsimp only
    rw [if_neg (by rw [List.length_take]; omega), if_pos ⟨(pre_take (by simp [mRAR4])).mpr hmark, h.rar⟩, hr, ok_bind]
    simp only [pure_eq_ok]
    have h8 : (if (8 : Int) < 0 then d else d.take (8 : Int).toNat) = d.take 8 := rfl
    rw [archivedName_of hm, movie_stream h hf, h8]
    dsimp only
    cases markerKind lower path raw (d.take 8) <;> rfl

/-- The extension of a RAR volume is not .mp3. -/
theorem rar_not_mp3 {dig : Nat → Bool} (hdig : DigOk dig) {path : Str} (h : isRar dig path = true) : ¬ str ".mp3" <:+ path := by
  have hm : dig 0x6D = false := by
    cases hh : dig 0x6D with
    | false => rfl
    | true => exact absurd ((hdig 0x6D (by omega)).mp hh) (by decide)
  have hp : dig 0x70 = false := by
    cases hh : dig 0x70 with
    | false => rfl
    | true => exact absurd ((hdig 0x70 (by omega)).mp hh) (by decide)
  obtain ⟨base, ext, tail, rfl, _, hext, ht⟩ := (isRar_iff dig path).mp h
  rintro ⟨u, hu⟩
  have hr := congrArg List.reverse hu
  rcases ht with rfl | rfl
  · rcases hext with he | ⟨x, a, b, rfl, _, ha, _⟩ | ⟨a, b, c, rfl, ha, _, _⟩
    · unfold Is at he
      rcases ext with _ | ⟨a, _ | ⟨b, _ | ⟨c, _ | ⟨e, r⟩⟩⟩⟩ <;> simp [str] at he
      simp [str] at hr
      rw [← hr.1] at he
      exact absurd he.2.2 (by decide)
    · simp [str] at hr
      simp_all
    · simp [str] at hr
      simp_all
  · simp [str] at hr

/-- What is said about the movie, when it is not in an archive, is said about it in an archive. -/
theorem marker_in_rars {lower : Str → Str} {plain path : Str} {raw d : Bytes} {k : SampleKind} (h14 : 14 ≤ d.length) (hi : ¬ mID3 <+: d)
    (hp : ¬ str ".mp3" <:+ path) (h : markerKind lower plain d (d.take 14) = .ok k)
    (hk : k = .mkv ∨ k = .avi ∨ k = .mp4 ∨ k = .wmv ∨ k = .flac ∨ (k = .mp3 ∧ isSync d = true)) :
    markerKind lower path raw (d.take 8) = .ok k := by
  rw [markerKind_take (by omega) (by omega) hi] at h ⊢
  rw [if_neg hp]
  by_cases c1 : mMKV <+: d
  · rw [if_pos c1] at h ⊢; exact h
  rw [if_neg c1] at h ⊢
  by_cases c2 : mRIFF <+: d
  · rw [if_pos c2] at h ⊢
    split at h
    · simp only [Except.ok.injEq] at h
      subst h
      rcases hk with hk | hk | hk | hk | hk | ⟨_, hk⟩ <;> try simp at hk
      obtain ⟨t, rfl⟩ := c2
      simp [mRIFF, isSync] at hk
    · exact h
  rw [if_neg c2] at h ⊢
  by_cases c3 : mFtyp <+: d.drop 4 ∨ m3gp5 <+: d
  · rw [if_pos c3] at h ⊢; exact h
  rw [if_neg c3] at h ⊢
  by_cases c4 : mWMV <+: d
  · rw [if_pos c4] at h ⊢; exact h
  rw [if_neg c4] at h ⊢
  by_cases c5 : mFLaC <+: d
  · rw [if_pos c5] at h ⊢; exact h
  rw [if_neg c5] at h ⊢
  by_cases c6 : mStreamSrs <+: d
  · rw [if_pos c6] at h ⊢; exact h
  rw [if_neg c6] at h ⊢
  by_cases c7 : mM2tsSrs <+: d
  · rw [if_pos c7] at h ⊢; exact h
  rw [if_neg c7] at h ⊢
  by_cases c8 : mSRSF <+: d
  · rw [if_pos c8] at h ⊢; exact h
  rw [if_neg c8] at h ⊢
  by_cases c9 : isSync d = true
  · rw [if_pos c9] at h ⊢; exact h
  rw [if_neg c9] at h
  exfalso
  have : k = .mp3 ∨ k = .stream ∨ k = .unknown := by
    split at h
    · simp only [Except.ok.injEq] at h; exact Or.inl h.symm
    · split at h
      · simp only [Except.ok.injEq] at h; exact Or.inr (Or.inl h.symm)
      · simp only [Except.ok.injEq] at h; exact Or.inr (Or.inr h.symm)
  rcases hk with hk | hk | hk | hk | hk | ⟨hk, hs⟩
  all_goals first | exact c9 hs | (subst hk; simp at this)

/-- A stream in an archive is a stream or not known. -/
theorem stream_in_rars {lower : Str → Str} {plain path : Str} {raw d : Bytes} (h14 : 14 ≤ d.length) (hi : ¬ mID3 <+: d)
    (ht : readAt raw (raw.length - 128) 3 ≠ mTAG) (h : markerKind lower plain d (d.take 14) = .ok .stream) :
    markerKind lower path raw (d.take 8) = .ok .stream ∨ markerKind lower path raw (d.take 8) = .ok .unknown := by
  rw [markerKind_take (by omega) (by omega) hi] at h ⊢
  by_cases c1 : mMKV <+: d
  · rw [if_pos c1] at h; simp at h
  rw [if_neg c1] at h ⊢
  by_cases c2 : mRIFF <+: d
  · rw [if_pos c2] at h
    split at h <;> simp at h
  rw [if_neg c2] at h ⊢
  by_cases c3 : mFtyp <+: d.drop 4 ∨ m3gp5 <+: d
  · rw [if_pos c3] at h; simp at h
  rw [if_neg c3] at h ⊢
  by_cases c4 : mWMV <+: d
  · rw [if_pos c4] at h; simp at h
  rw [if_neg c4] at h ⊢
  by_cases c5 : mFLaC <+: d
  · rw [if_pos c5] at h; simp at h
  rw [if_neg c5] at h ⊢
  by_cases c6 : mStreamSrs <+: d
  · rw [if_pos c6]; exact Or.inl rfl
  rw [if_neg c6] at h ⊢
  by_cases c7 : mM2tsSrs <+: d
  · rw [if_pos c7] at h; simp at h
  rw [if_neg c7] at h ⊢
  by_cases c8 : mSRSF <+: d
  · rw [if_pos c8] at h; simp at h
  rw [if_neg c8] at h ⊢
  by_cases c9 : isSync d = true
  · rw [if_pos c9] at h; simp at h
  rw [if_neg c9, if_neg (fun hh => ht hh.2)]
  split
  · exact Or.inl rfl
  · exact Or.inr rfl

/-! ### The property -/

/-- C103, the name and the kind: `file_type_info` says of a movie in stored RAR volumes what it says
of the movie.  Not for music with an ID3v2 tag (`tagged_music_in_rar`) or recognised only by its name
or by the tag at its end, and not for streams (`stream_from_rars_partial`). -/
theorem movie_kind_partial {dig : Nat → Bool} {lower : Str → Str} {fs : Str → Option Bytes} {path asked name plain : Str}
    {l : List (Bytes × List Block)} {d : Bytes} {k : SampleKind} {fuel : Nat} (h : MovieInRars dig fs path asked name l d) (hf : l.length < fuel)
    (hdig : DigOk dig) (hk : MediaFile.kind dig lower ⟨plain, d, none⟩ = .ok k) (hi : ¬ mID3 <+: d)
    (hc : k = .mkv ∨ k = .avi ∨ k = .mp4 ∨ k = .wmv ∨ k = .flac ∨ (k = .mp3 ∧ isSync d = true)) :
    fileTypeInfo dig lower fs fuel path = .ok (k, asked) := by
  obtain ⟨raw, _, _, he⟩ := info_movie (lower := lower) h hf
  have hu : k ≠ .unknown := by rintro rfl; simp at hc
  obtain ⟨h14, hmk⟩ := kind_known hu hk
  rw [he, marker_in_rars h14 hi (rar_not_mp3 hdig h.rar) hmk hc]
  rfl

theorem plain_data {dig : Nat → Bool} {plain : Str} {d : Bytes} (hp : isRar dig plain = false) : MediaFile.data dig ⟨plain, d, none⟩ = .ok d := by
  unfold MediaFile.data
  rw [if_neg (by rw [hp]; simp)]

/-- C103: what the command `srs x.srs movie` rebuilds with a movie in stored RAR volumes is what it
rebuilds with the movie itself, for any SRS file.  For MP4 movies only when all volumes begin with
the movie (`mp4_other_file`). -/
theorem restore_from_rars_partial {dig : Nat → Bool} {lower : Str → Str} {fs : Str → Option Bytes} {path asked name plain srsPath : Str} {srs : Bytes} {ig : Bool}
    {l : List (Bytes × List Block)} {d : Bytes} {k : SampleKind} {fuel : Nat} (h : MovieInRars dig fs path asked name l d) (hf : l.length < fuel)
    (hdig : DigOk dig) (hk : MediaFile.kind dig lower ⟨plain, d, none⟩ = .ok k) (hi : ¬ mID3 <+: d)
    (hc : k = .mkv ∨ k = .avi ∨ k = .mp4 ∨ k = .wmv ∨ k = .flac ∨ (k = .mp3 ∧ isSync d = true)) (hplain : isRar dig plain = false)
    (h4 : k = .mp4 → ∀ v ∈ l, ∀ n, firstFile v.2 = some n → n = name) :
    srsRestoreAt dig lower fs fuel srsPath srs path ig = srsRestore dig lower srsPath srs ⟨plain, d, none⟩ ig := by
  have hr : readerBytes dig fs fuel path asked = .ok d := by
    unfold readerBytes
    rw [if_pos h.rar, movie_stream h hf]
    rfl
  unfold srsRestoreAt srsRestore
  rw [movie_kind_partial h hf hdig hk hi hc, hk, plain_data hplain]
  cases MediaFile.kind dig lower ⟨srsPath, srs, none⟩ with
  | error e => rfl
  | ok ks =>
    have hu : k ≠ .unknown := by rintro rfl; simp at hc
    dsimp only
    rw [hr, if_neg hu]
    by_cases hs : k = ks
    · subst hs
      dsimp only
      rw [if_neg (show ¬ (k = .mp4 ∧ openMain dig fs fuel path ≠ .ok d) from fun hh => hh.2 (open_main_movie h hf (h4 hh.1)))]
    · rw [if_neg hs, if_neg hs]

/-- C103 for streams (.vob, .m2ts and so on, which have no marker): with an SRS of a stream the same
is rebuilt, although the movie in the volumes is not recognised.  Not when the last 128 bytes of the
first volume look like an ID3v1 tag. -/
theorem stream_from_rars_partial {dig : Nat → Bool} {lower : Str → Str} {fs : Str → Option Bytes} {path asked name plain srsPath : Str} {srs raw : Bytes} {ig : Bool}
    {l : List (Bytes × List Block)} {d : Bytes} {fuel : Nat} (h : MovieInRars dig fs path asked name l d) (hf : l.length < fuel)
    (hk : MediaFile.kind dig lower ⟨plain, d, none⟩ = .ok .stream) (hi : ¬ mID3 <+: d) (hplain : isRar dig plain = false)
    (hs : MediaFile.kind dig lower ⟨srsPath, srs, none⟩ = .ok .stream) (hraw : fs path = some raw) (ht : readAt raw (raw.length - 128) 3 ≠ mTAG) :
    srsRestoreAt dig lower fs fuel srsPath srs path ig = srsRestore dig lower srsPath srs ⟨plain, d, none⟩ ig := by
  have hr : readerBytes dig fs fuel path asked = .ok d := by
    unfold readerBytes
    rw [if_pos h.rar, movie_stream h hf]
    rfl
  obtain ⟨raw', hraw', _, he⟩ := info_movie (lower := lower) h hf
  rw [hraw] at hraw'
  simp only [Option.some.injEq] at hraw'
  subst hraw'
  obtain ⟨h14, hmk⟩ := kind_known (by simp) hk
  unfold srsRestoreAt srsRestore
  rw [he, hk, hs, plain_data hplain]
  rcases stream_in_rars (path := path) h14 hi ht hmk with hx | hx <;> rw [hx] <;> simp [Except.map, hr]

/-! ### Where it does not hold -/

/-- A volume with files of these names and data; the numbers are the flags and the method. -/
def movieVolume (files : List (Bytes × UInt8 × UInt8 × Bytes)) : Bytes :=
  [0x52, 0x61, 0x72, 0x21, 0x1A, 0x07, 0x00] ++ [0, 0, 0x73, 0, 0, 13, 0, 0, 0, 0, 0, 0, 0] ++
    files.flatMap fun f =>
      [0, 0, 0x74, f.2.1, 0x80, UInt8.ofNat (32 + f.1.length), 0, UInt8.ofNat f.2.2.2.length, 0, 0, 0, 9, 0, 0, 0, 0, 0, 0, 0, 0, 0, 0, 0, 0, 20, f.2.2.1,
        UInt8.ofNat f.1.length, 0, 0, 0, 0, 0] ++ f.1 ++ f.2.2.2

/-- The names `n`, `m.avi`, `M.AVI` and `m.mp4`. -/
def nmText : Bytes := [0x6E]
def nmAvi : Bytes := [0x6D, 0x2E, 0x61, 0x76, 0x69]
def nmAVI : Bytes := [0x4D, 0x2E, 0x41, 0x56, 0x49]
def nmMp4 : Bytes := [0x6D, 0x2E, 0x6D, 0x70, 0x34]

/-- The first bytes of an AVI and of an MP4 file. -/
def aviStart : Bytes := mRIFF ++ [6, 0, 0, 0, 0x41, 0x56, 0x49, 0x20, 1, 2]
def mp4Start : Bytes := [0, 0, 0, 14] ++ mFtyp ++ [1, 2, 3, 4, 5, 6]

set_option maxRecDepth 20000 in
/-- C103, violation: a text file and a movie with an extension in capitals: the movie is not used. -/
theorem movie_in_capitals :
    fileTypeInfo exDig lowerStr (exFs (movieVolume [(nmText, 0, 0x30, [1, 2, 3]), (nmAVI, 0, 0x30, aviStart)]) []) 3 (str "a.rar") = .ok (.unknown, []) ∧
      MediaFile.kind exDig lowerStr ⟨str "M.AVI", aviStart, none⟩ = .ok .avi := by decide +kernel

set_option maxRecDepth 20000 in
/-- C103, violation: the movie is stored, but a text file beside it is compressed. -/
theorem compressed_text :
    fileTypeInfo exDig lowerStr (exFs (movieVolume [(nmText, 0, 0x33, [1, 2, 3]), (nmAvi, 0, 0x30, aviStart)]) []) 3 (str "a.rar") =
      .ok (.unknown, str "m.avi") := by decide +kernel

set_option maxRecDepth 20000 in
/-- C103, violation: an MP4 movie behind a text file: its structure is read from the movie, the data
of its tracks from the text file. -/
theorem mp4_other_file :
    let fs := fun p => if p = str "a.rar" then some (movieVolume [(nmText, 0, 0x30, [1, 2, 3]), (nmMp4, 0, 0x30, mp4Start)]) else none
    fileTypeInfo exDig lowerStr fs 3 (str "a.rar") = .ok (.mp4, str "m.mp4") ∧
      readerBytes exDig fs 3 (str "a.rar") (str "m.mp4") = .ok mp4Start ∧ openMain exDig fs 3 (str "a.rar") = .ok [1, 2, 3] := by decide +kernel

/-! ### A set as in the theorems: a text file and a movie that goes on in the second volume -/

/-- The blocks of a volume. -/
def blocksOf (raw : Bytes) : List Block :=
  match readAll raw with
  | .ok b => b
  | .error _ => []

def goodBlock (b : Block) : Bool :=
  match b.kind with
  | .packed f => f.method == 0x30
  | _ => b.btype != 0x74

theorem set_more {dig : Nat → Bool} {fs : Str → Option Bytes} {path next : Str} {raw : Bytes} {l : List (Bytes × List Block)} (h1 : fs path = some raw)
    (h2 : openReader raw = .ok .rar) (h3 : readAll raw = .ok (blocksOf raw)) (h4 : (blocksOf raw).all goodBlock = true)
    (h5 : nextArchive dig path ((blocksOf raw).any fun b => b.btype == 0x73 && !hasFlag b.flags 0x10) = .ok next) (h6 : VolumeSet dig fs false next l) :
    VolumeSet dig fs false path ((raw, blocksOf raw) :: l) := by
  refine .more h1 h2 h3 (fun b hb ht => ?_) (fun b hb f hk => ?_) h5 h6
  · have := List.all_eq_true.mp h4 b hb
    unfold goodBlock at this
    split at this
    · rename_i f hk; exact ⟨f, hk⟩
    · rw [ht] at this; simp at this
  · have := List.all_eq_true.mp h4 b hb
    unfold goodBlock at this
    rw [hk] at this
    exact Or.inl (by simpa using this)

def movieA : Bytes := movieVolume [(nmText, 0, 0x30, [1, 2, 3]), (nmAvi, 2, 0x30, aviStart.take 9)]
def movieB : Bytes := movieVolume [(nmAvi, 1, 0x30, aviStart.drop 9)]

set_option maxRecDepth 20000 in
theorem movie_example : MovieInRars exDig (exFs movieA movieB) (str "a.rar") (str "m.avi") (str "m.avi") [(movieA, blocksOf movieA), (movieB, blocksOf movieB)] aviStart where
  rar := by decide +kernel
  set := set_more (by decide +kernel) (by decide +kernel) (by decide +kernel) (by decide +kernel) (next := str "a.r00") (by decide +kernel)
    (set_more (by decide +kernel) (by decide +kernel) (by decide +kernel) (by decide +kernel) (next := str "a.r01") (by decide +kernel) (.none (by decide +kernel)))
  start := by
    refine ⟨_, _, _, ((blocksOf movieA).find? fun b => b.btype == 0x74).get (by decide +kernel), rfl, ⟨movieA.drop 7, by decide +kernel⟩, ?_, by decide +kernel, Or.inl ⟨rfl, ?_, [str "n"], [], by decide +kernel, ?_⟩⟩
    · rw [Option.some_get]
    · exact ⟨str ".avi", by simp, ⟨str "m", by decide⟩⟩
    · intro n hn
      simp only [List.mem_singleton] at hn
      subst hn
      rw [← media_iff]
      decide
  named := by decide
  data := by decide +kernel
  full := ⟨aviStart.take 9, [aviStart.drop 9], by decide +kernel, by decide⟩

theorem exDig_ok : DigOk exDig := by
  intro c _
  simp [exDig]

set_option maxRecDepth 20000 in
example : fileTypeInfo exDig lowerStr (exFs movieA movieB) 3 (str "a.rar") = .ok (.avi, str "m.avi") :=
  movie_kind_partial (plain := str "m.avi") movie_example (by decide) exDig_ok (by decide +kernel) (by decide) (by simp)

set_option maxRecDepth 20000 in
example (srsPath : Str) (srs : Bytes) (ig : Bool) : srsRestoreAt exDig lowerStr (exFs movieA movieB) 3 srsPath srs (str "a.rar") ig =
    srsRestore exDig lowerStr srsPath srs ⟨str "m.avi", aviStart, none⟩ ig :=
  restore_from_rars_partial movie_example (by decide) exDig_ok (k := .avi) (by decide +kernel) (by decide) (by simp) (by decide +kernel) (by simp)

/-- A stream `m.ts` in one volume. -/
def movieC : Bytes := movieVolume [([0x6D, 0x2E, 0x74, 0x73], 0, 0x30, List.replicate 15 7)]
def fsC (p : Str) : Option Bytes := if p = str "a.rar" then some movieC else none

set_option maxRecDepth 20000 in
theorem stream_example : MovieInRars exDig fsC (str "a.rar") (str "m.ts") (str "m.ts") [(movieC, blocksOf movieC)] (List.replicate 15 7) where
  rar := by decide +kernel
  set := set_more (by decide +kernel) (by decide +kernel) (by decide +kernel) (by decide +kernel) (next := str "a.r00") (by decide +kernel) (.none (by decide +kernel))
  start := by
    refine ⟨_, _, _, ((blocksOf movieC).find? fun b => b.btype == 0x74).get (by decide +kernel), rfl, ⟨movieC.drop 7, by decide +kernel⟩, ?_, by decide +kernel, Or.inl ⟨rfl, ?_, [], [], by decide +kernel, by simp⟩⟩
    · rw [Option.some_get]
    · exact ⟨str ".ts", by simp, ⟨str "m", by decide⟩⟩
  named := by decide
  data := by decide +kernel
  full := ⟨List.replicate 15 7, [], by decide +kernel, by decide⟩

set_option maxRecDepth 20000 in
example (ig : Bool) : srsRestoreAt exDig lowerStr fsC 3 (str "m.srs") (mStreamSrs ++ List.replicate 15 0) (str "a.rar") ig =
    srsRestore exDig lowerStr (str "m.srs") (mStreamSrs ++ List.replicate 15 0) ⟨str "m.ts", List.replicate 15 7, none⟩ ig :=
  stream_from_rars_partial stream_example (by decide) (by decide +kernel) (by decide) (by decide +kernel) (by decide +kernel) (raw := movieC) rfl (by decide +kernel)

end Rescene.Props
