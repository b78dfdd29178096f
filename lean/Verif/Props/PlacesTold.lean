import Verif.Props.SrsTools
import Verif.Props.AviFind
import Verif.Props.SrsChecked
/-
C105: what an SRS that was made with the movie tells.
-/
namespace Rescene.Props
open Rescene Spec

/-! ### AVI -/

theorem riffLoop_fold {σ : Type} {mode : RiffMode} {enter : RiffChunk → Bool} {peek : Bool} {file : Bytes}
    {f : σ → RiffItem → Res (σ × Bool)} : ∀ {fuel pos : Nat} {s s' : σ},
    riffLoop mode enter peek file f fuel pos s = .ok s' → ∃ its, foldGo f s its = .ok s' := by
  intro fuel
  induction fuel with
  | zero => intro pos s s' h; simp [riffLoop] at h
  | succ fuel ih =>
    intro pos s s' h
    simp only [riffLoop, bind_eq_ok] at h
    obtain ⟨r, _, h⟩ := h
    cases r with
    | none =>
      simp only [pure_eq_ok] at h
      exact ⟨[], h⟩
    | some r =>
      obtain ⟨it, q⟩ := r
      simp only [bind_eq_ok] at h
      obtain ⟨⟨s1, go⟩, hs, h⟩ := h
      cases go with
      | true =>
        simp only [if_true] at h
        obtain ⟨its, e⟩ := ih h
        exact ⟨it :: its, by simp only [foldGo, hs, ok_bind, if_true, e]⟩
      | false =>
        refine ⟨[it], ?_⟩
        simp only [foldGo, hs, ok_bind, Bool.false_eq_true, if_false]
        simp only [Bool.false_eq_true, if_false] at h
        split at h
        · simp only [bind_eq_ok] at h
          obtain ⟨_, _, h⟩ := h
          exact h
        · exact h

/-- What stays the same during a search. -/
structure SameStored (ts ts1 : Tracks) : Prop where
  distinct : ts1.Pairwise (fun a b => a.1 ≠ b.1)
  sig : ∀ n, (ts1.getNew n).sig = (ts.getNew n).sig

theorem aviFind_same {file : Bytes} {ts : Tracks} {its : List RiffItem} : ∀ {ts1 ts2 : Tracks}, SameStored ts ts1 →
    foldGo (findStep file) ts1 its = .ok ts2 → SameStored ts ts2 := by
  induction its with
  | nil =>
    intro ts1 ts2 h e
    simp only [foldGo, Except.ok.injEq] at e
    exact e ▸ h
  | cons it its ih =>
    intro ts1 ts2 h e
    simp only [foldGo, bind_eq_ok] at e
    obtain ⟨⟨ts', go⟩, hs, e⟩ := e
    have h' : SameStored ts ts' := by
      rcases findStep_put hs with rfl | ⟨n, t, rfl, _, _, hsig⟩
      · exact h
      · refine ⟨pairwise_put h.distinct, fun k => ?_⟩
        rw [getNew_put]
        split
        · rename_i e; subst e; exact hsig.trans (h.sig k)
        · exact h.sig k
    dsimp only at e
    split at e
    · exact ih h' e
    · simp only [pure_eq_ok, Except.ok.injEq] at e
      exact e ▸ h'

/-- C105: the SRS of an AVI sample that was compared with a movie, any file, tells the size of the sample and at least one place,
and none of the places is 0. -/
theorem avi_checked {dig : Nat → Bool} {lower : Str → Str} {app name path p : Str} {parts : List AviPart} {movie : Bytes} {big : Bool} {srs : Bytes}
    (hp : PlainAvi parts) (hk : MediaFile.kind dig lower ⟨path, aviBytes parts, none⟩ = .ok .avi)
    (h : srsAviCreate app name (aviBytes parts) big (some movie) = .ok srs) (hl : 14 ≤ srs.length) (hname : ¬ str ".mp3" <:+ p) :
    ∃ offs, Places dig lower p srs offs ∧ SampleSize dig lower p srs (aviBytes parts).length ∧ (∀ o ∈ offs, o ≠ 0) ∧
      (offs ≠ [] ↔ ∃ n, trackBytes parts n ≠ []) := by
  have hkind := avi_srs_kind hk h hl hname
  unfold srsAviCreate at h
  split at h
  · simp at h
  simp only [bind_eq_ok] at h
  obtain ⟨⟨crc, tracks⟩, hprof, h⟩ := h
  obtain ⟨rfl, hts⟩ := aviProfile_ok hp.ok hprof
  dsimp only at h
  split at h
  · simp at h
  simp only [bind_eq_ok] at h
  obtain ⟨tr, ⟨ts1, hfind, htr⟩, h⟩ := h
  split at htr
  · simp [throw, throwThe, MonadExceptOf.throw] at htr
  rename_i hun
  simp only [pure_eq_ok, Except.ok.injEq] at htr
  subst htr
  obtain ⟨its, hfold⟩ := riffLoop_fold hfind
  change foldGo (findStep movie) tracks its = _ at hfold
  have hpl := find_plain (fun x hx => ⟨(tracksOf_small hts x hx).1, (tracksOf_small hts x hx).2.2⟩) hfold
  have hsame := aviFind_same (ts := tracks) (ts1 := tracks) ⟨hts.distinct, fun _ => rfl⟩ hfold
  -- the tracks with data
  have hsig : ∀ n, (ts1.getNew n).sig = (trackBytes parts n).take 256 := by
    intro n
    rw [hsame.sig]
    by_cases hn : n ∈ trackKeys tracks
    · obtain ⟨x, hx, rfl⟩ := List.mem_map.1 hn
      rw [getNew_of_mem hts.distinct hx, hts.data x.1 x.2 hx]
      rfl
    · rw [getNew_not_mem hn]
      have : trackBytes parts n = [] := by
        by_cases h0 : trackBytes parts n = []
        · exact h0
        · exact absurd ((hts.keys n).2 (occurs_of_bytes h0)) hn
      rw [this]; rfl
  have hsub : ∀ x ∈ ts1.filter (fun t => t.2.sig ≠ []), x ∈ ts1 ∧ x.2.sig ≠ [] ∧ trackBytes parts x.1 ≠ [] := by
    intro x hx
    obtain ⟨h1, h2⟩ := List.mem_filter.1 hx
    have h2 : x.2.sig ≠ [] := by simpa using h2
    refine ⟨h1, h2, fun e => h2 ?_⟩
    have := hsig x.1
    rw [getNew_of_mem hsame.distinct h1, e] at this
    exact this
  obtain ⟨hload, _⟩ := avi_srs_rebuilds hp (fun x hx => by
    obtain ⟨m1, _, m2⟩ := hsub x hx
    obtain ⟨e1, e2⟩ := hpl x m1
    have hk := (hts.keys x.1).2 (occurs_of_bytes m2)
    obtain ⟨y, hy, hyx⟩ := List.mem_map.1 hk
    obtain ⟨f1, f2, _⟩ := tracksOf_small hts y hy
    exact ⟨e1, by omega, e2⟩) (hsame.distinct.sublist List.filter_sublist) h
  have ht : srsTold .avi srs = .ok (some (aviBytes parts).length, (ts1.filter (fun t => t.2.sig ≠ [])).map fun t => t.2.matchOffset) := by
    unfold srsTold
    dsimp only
    rw [hload, ok_bind]
    simp [Function.comp_def, pure_eq_ok, readTrack]
  refine ⟨_, ⟨_, _, hkind, by simp, by simp, ht⟩, ⟨_, _, hkind, ht⟩, ?_, ?_⟩
  · intro o ho
    obtain ⟨x, hx, rfl⟩ := List.mem_map.1 ho
    obtain ⟨m1, m2, _⟩ := hsub x hx
    intro e
    exact hun (missed_video.2 ⟨x, m1, m2, e⟩)
  · constructor
    · intro hne
      cases hf : ts1.filter (fun t => t.2.sig ≠ []) with
      | nil => rw [hf] at hne; simp at hne
      | cons x l => exact ⟨x.1, (hsub x (by rw [hf]; simp)).2.2⟩
    · rintro ⟨n, hn⟩
      have hs : (ts1.getNew n).sig ≠ [] := by
        rw [hsig]
        cases hb : trackBytes parts n with
        | nil => exact absurd hb hn
        | cons b l => simp
      have hk : n ∈ trackKeys ts1 := by
        by_cases hk : n ∈ trackKeys ts1
        · exact hk
        · rw [getNew_not_mem hk] at hs; exact absurd rfl hs
      obtain ⟨x, hx, rfl⟩ := List.mem_map.1 hk
      rw [getNew_of_mem hsame.distinct hx] at hs
      intro e
      have : x ∈ ts1.filter (fun t => t.2.sig ≠ []) := List.mem_filter.2 ⟨hx, by simpa using hs⟩
      rw [List.map_eq_nil_iff.1 e] at this
      simp at this

/-! ### MP4 -/

/-- A track without its place. -/
def unplaced (x : Nat × TrackData) : Nat × TrackData := (x.1, { x.2 with matchOffset := 0 })

theorem movSet_unplaced {ts : Tracks} (hd : ts.Pairwise (fun a b => a.1 ≠ b.1)) {n : Nat} {t : TrackData} {o : Int}
    (hg : movGet ts n = some t) : (movSet ts n { t with matchOffset := o }).map unplaced = ts.map unplaced := by
  unfold movSet
  rw [List.map_map]
  refine List.map_congr_left fun x hx => ?_
  dsimp only [Function.comp]
  split
  · rename_i e
    have : movGet ts x.1 = some x.2 := movGet_of_mem hd hx
    rw [e, hg, Option.some.injEq] at this
    subst this
    simp [unplaced, e]
  · rfl

theorem unplaced_distinct {a b : Tracks} (h : a.map unplaced = b.map unplaced) (hb : b.Pairwise (fun a b => a.1 ≠ b.1)) :
    a.Pairwise (fun a b => a.1 ≠ b.1) := by
  have key : ∀ l : Tracks, l.Pairwise (fun a b => a.1 ≠ b.1) ↔ (l.map unplaced).Pairwise (fun a b => a.1 ≠ b.1) := by
    intro l
    rw [List.pairwise_map]
    exact Iff.rfl
  rw [key, h, ← key]
  exact hb

theorem mp4FindLoop_same {main : Bytes} : ∀ {l : List (Nat × MovTrack)} {ts ts1 : Tracks}, ts.Pairwise (fun a b => a.1 ≠ b.1) →
    mp4FindLoop main l ts = .ok ts1 → ts1.map unplaced = ts.map unplaced := by
  intro l
  induction l with
  | nil =>
    intro ts ts1 _ h
    simp only [mp4FindLoop, Except.ok.injEq] at h
    rw [h]
  | cons x l ih =>
    intro ts ts1 hd h
    obtain ⟨n, m⟩ := x
    rw [mp4FindLoop] at h
    cases hg : movGet ts n with
    | none =>
      rw [hg] at h
      exact ih hd h
    | some t =>
      rw [hg] at h
      simp only [bind_eq_ok] at h
      obtain ⟨o, _, h⟩ := h
      cases o with
      | none => exact ih hd h
      | some o =>
        have e := movSet_unplaced (o := o) hd hg
        exact (ih (unplaced_distinct e hd) h).trans e

/-- C105: the same for MP4. -/
theorem mp4_checked {dig : Nat → Bool} {lower : Str → Str} {before after : List MovTop} {form : MovForm} {media : Bytes}
    {tracks : List MovLayout} (hp : PlainMp4 before form media after tracks) (hid : ∀ t ∈ tracks, t.id < 2 ^ 16)
    {app name path p : Str} {big : Bool} {movie srs : Bytes}
    (hk : MediaFile.kind dig lower ⟨path, mp4Bytes before form media after, none⟩ = .ok .mp4)
    (hm : ¬ [0x33, 0x67, 0x70, 0x35, 0x6D, 0x64, 0x61, 0x74] <+: (mp4Bytes before form media after))
    (h : srsMp4Create app name (mp4Bytes before form media after) big (some movie) = .ok srs) (hl : 14 ≤ srs.length) (hbig : srs.length < 2 ^ 63) :
    ∃ offs, Places dig lower p srs offs ∧ SampleSize dig lower p srs (mp4Bytes before form media after).length ∧ (∀ o ∈ offs, o ≠ 0) ∧
      (offs ≠ [] ↔ ∃ t ∈ tracks, layoutData (mp4Bytes before form media after) t ≠ []) := by
  have hkind := mp4_srs_kind (srsPath := p) hk hm h hl
  unfold srsMp4Create at h
  split at h
  · simp at h
  rw [mp4_profiled hp, ok_bind] at h
  dsimp only at h
  split at h
  · simp at h
  simp only [bind_eq_ok] at h
  obtain ⟨tr, ⟨ts1, hfind, htr⟩, h⟩ := h
  split at htr
  · simp [throw, throwThe, MonadExceptOf.throw] at htr
  rename_i hun
  simp only [pure_eq_ok, Except.ok.injEq] at htr
  subst htr
  unfold mp4Find at hfind
  simp only [bind_eq_ok] at hfind
  obtain ⟨mov, _, hfind⟩ := hfind
  obtain ⟨ts0, hts0⟩ : ∃ ts0 : Tracks, (tracks.map fun t => (t.id,
        ({ number := t.id
           dataLength := (layoutData (mp4Bytes before form media after) t).length
           sig := (layoutData (mp4Bytes before form media after) t).take 256 } : TrackData))) = ts0 := ⟨_, rfl⟩
  rw [hts0] at hfind
  have hd0 : ts0.Pairwise (fun a b => a.1 ≠ b.1) := by
    rw [← hts0, List.pairwise_map]
    exact hp.tables.distinct
  have hsame := mp4FindLoop_same hd0 hfind
  have hd1 := unplaced_distinct hsame hd0
  have hback : ∀ x ∈ ts1, ∃ t ∈ tracks, x.1 = t.id ∧ x.2.number = t.id ∧ x.2.flags = 0 ∧
      x.2.sig = (layoutData (mp4Bytes before form media after) t).take 256 := by
    intro x hx
    have hm : unplaced x ∈ ts0.map unplaced := hsame ▸ List.mem_map.2 ⟨x, hx, rfl⟩
    obtain ⟨y, hy, e⟩ := List.mem_map.1 hm
    rw [← hts0] at hy
    obtain ⟨t, ht, rfl⟩ := List.mem_map.1 hy
    have e1 := congrArg (fun z : Nat × TrackData => z.1) e
    have e2 := congrArg (fun z : Nat × TrackData => z.2.number) e
    have e3 := congrArg (fun z : Nat × TrackData => z.2.flags) e
    have e4 := congrArg (fun z : Nat × TrackData => z.2.sig) e
    exact ⟨t, ht, e1.symm, e2.symm, e3.symm, e4.symm⟩
  have hforth : ∀ t ∈ tracks, ∃ x ∈ ts1, x.2.sig = (layoutData (mp4Bytes before form media after) t).take 256 := by
    intro t ht
    obtain ⟨y, hy, hsig⟩ : ∃ y ∈ ts0, y.2.sig = (layoutData (mp4Bytes before form media after) t).take 256 := by
      rw [← hts0]
      exact ⟨_, List.mem_map.2 ⟨t, ht, rfl⟩, rfl⟩
    have hm : unplaced y ∈ ts1.map unplaced := hsame ▸ List.mem_map.2 ⟨y, hy, rfl⟩
    obtain ⟨x, hx, e⟩ := List.mem_map.1 hm
    have : (unplaced x).2.sig = (unplaced y).2.sig := by rw [e]
    exact ⟨x, hx, this.trans hsig⟩
  have hsub : ∀ x ∈ ts1.filter (fun t => t.2.sig ≠ []), x ∈ ts1 ∧ x.2.sig ≠ [] := by
    intro x hx
    obtain ⟨h1, h2⟩ := List.mem_filter.1 hx
    exact ⟨h1, by simpa using h2⟩
  obtain ⟨hload, _⟩ := mp4_srs_rebuilds hp (fun x hx => by
    obtain ⟨t, ht, e1, e2, e3, _⟩ := hback x (hsub x hx).1
    have := hid t ht
    exact ⟨by omega, by omega, e3⟩) (hd1.sublist List.filter_sublist) h hbig
  have ht : srsTold .mp4 srs = .ok (some (mp4Bytes before form media after).length,
      (ts1.filter (fun t => t.2.sig ≠ [])).map fun t => t.2.matchOffset) := by
    unfold srsTold
    dsimp only
    rw [hload, ok_bind]
    simp [Function.comp_def, pure_eq_ok, readTrack]
  refine ⟨_, ⟨_, _, hkind, by simp, by simp, ht⟩, ⟨_, _, hkind, ht⟩, ?_, ?_⟩
  · intro o ho
    obtain ⟨x, hx, rfl⟩ := List.mem_map.1 ho
    obtain ⟨m1, m2⟩ := hsub x hx
    intro e
    exact hun (missed_video.2 ⟨x, m1, m2, e⟩)
  · constructor
    · intro hne
      cases hf : ts1.filter (fun t => t.2.sig ≠ []) with
      | nil => rw [hf] at hne; simp at hne
      | cons x l =>
        obtain ⟨m1, m2⟩ := hsub x (by rw [hf]; simp)
        obtain ⟨t, ht, _, _, _, e⟩ := hback x m1
        refine ⟨t, ht, fun e0 => m2 ?_⟩
        rw [e, e0]; rfl
    · rintro ⟨t, ht, hne⟩
      obtain ⟨x, hx, e⟩ := hforth t ht
      have hs : x.2.sig ≠ [] := by
        rw [e]
        cases hb : layoutData (mp4Bytes before form media after) t with
        | nil => exact absurd hb hne
        | cons b l => simp
      intro e
      have : x ∈ ts1.filter (fun t => t.2.sig ≠ []) := List.mem_filter.2 ⟨hx, by simpa using hs⟩
      rw [List.map_eq_nil_iff.1 e] at this
      simp at this

/-! ### MKV -/

theorem mkvFindFrame_same (base : Int) (ss sm buff : Bytes) (t : MkvTrack) (offset frame : Int) :
    (mkvFindFrame base ss sm buff t offset frame).number = t.number ∧ (mkvFindFrame base ss sm buff t offset frame).flags = t.flags ∧
      (mkvFindFrame base ss sm buff t offset frame).sig = t.sig := by
  unfold mkvFindFrame
  dsimp only
  split <;> (try split) <;> (try split) <;> (try split) <;> (try split) <;> exact ⟨rfl, rfl, rfl⟩

theorem mkvFindFrames_same {base : Int} {ss sm buff : Bytes} : ∀ (l : List Int) (t : MkvTrack) (offset : Int),
    (mkvFindFrames base ss sm buff t offset l).number = t.number ∧ (mkvFindFrames base ss sm buff t offset l).flags = t.flags ∧
      (mkvFindFrames base ss sm buff t offset l).sig = t.sig
  | [], _, _ => ⟨rfl, rfl, rfl⟩
  | fr :: l, t, offset => by
    obtain ⟨h1, h2, h3⟩ := mkvFindFrame_same base ss sm buff t offset fr
    obtain ⟨g1, g2, g3⟩ := mkvFindFrames_same (base := base) (ss := ss) (sm := sm) (buff := buff) l (mkvFindFrame base ss sm buff t offset fr) (offset + fr)
    exact ⟨g1.trans h1, g2.trans h2, g3.trans h3⟩

/-- A step of the search changes at most one track, and not what is stored of it but its place. -/
theorem mkvFindItem_put {s s' : MkvFind} {e : EbmlElem} {data : Bytes} {done : Bool} (h : mkvFindItem s e data = .ok (s', done)) :
    s'.tracks = s.tracks ∨ ∃ n t, s'.tracks = dictPut s.tracks n t ∧ t.number = (mkvTrackOf s.tracks n).number ∧
      t.flags = (mkvTrackOf s.tracks n).flags ∧ t.sig = (mkvTrackOf s.tracks n).sig := by
  unfold mkvFindItem at h
  cases hb : e.block with
  | some b =>
    rw [hb] at h
    simp only [Except.ok.injEq] at h
    unfold mkvBlockFind at h
    dsimp only at h
    split at h
    · simp only [Prod.mk.injEq] at h
      exact .inr ⟨b.track, _, by rw [← h.1], mkvFindFrames_same _ _ _⟩
    · split at h
      · simp only [Prod.mk.injEq] at h
        exact .inr ⟨b.track, { mkvTrackOf s.tracks b.track with
          matchLen := (mkvTrackOf s.tracks b.track).matchLen +
            min ((mkvTrackOf s.tracks b.track).len - (mkvTrackOf s.tracks b.track).matchLen) e.length }, by rw [← h.1], rfl, rfl, rfl⟩
      · simp only [Prod.mk.injEq] at h
        exact .inr ⟨b.track, mkvTrackOf s.tracks b.track, by rw [← h.1], rfl, rfl, rfl⟩
  | none =>
    rw [hb] at h
    dsimp only at h
    split at h
    · split at h
      · simp only [Except.ok.injEq, Prod.mk.injEq] at h
        exact .inl (by rw [← h.1])
      · simp at h
    · simp only [bind_eq_ok] at h
      obtain ⟨⟨mains, cur, strip⟩, _, h⟩ := h
      simp only [pure_eq_ok, Except.ok.injEq, Prod.mk.injEq] at h
      exact .inl (by rw [← h.1])

structure SameMkv (ts ts1 : MkvTracks) : Prop where
  distinct : ts1.Pairwise (fun a b => a.1 ≠ b.1)
  plain : ∀ n, (mkvTrackOf ts1 n).number = n ∧ (mkvTrackOf ts1 n).flags = 0
  sig : ∀ n, (mkvTrackOf ts1 n).sig = (mkvTrackOf ts n).sig

theorem mkvTrackOf_put (ts : MkvTracks) (n k : Nat) (t : MkvTrack) : mkvTrackOf (dictPut ts n t) k = if k = n then t else mkvTrackOf ts k := by
  unfold mkvTrackOf
  rw [movGet_dictPut]
  split <;> rfl

theorem mkvTrackOf_mem {ts : MkvTracks} (hd : ts.Pairwise (fun a b => a.1 ≠ b.1)) {x : Nat × MkvTrack} (h : x ∈ ts) : mkvTrackOf ts x.1 = x.2 := by
  unfold mkvTrackOf
  rw [movGet_of_mem hd h]
  rfl

theorem mkvLoop_same {mode : EbmlMode} {again : Bool} {how : MkvFind → EbmlElem → EbmlHow} {file : Bytes} {ts : MkvTracks} :
    ∀ {fuel pos : Nat} {s s' : MkvFind} {done : Bool}, SameMkv ts s.tracks →
    mkvLoop mode again how file mkvFindItem fuel pos s done = .ok s' → SameMkv ts s'.tracks := by
  intro fuel
  induction fuel with
  | zero => intro pos s s' done _ h; simp [mkvLoop] at h
  | succ fuel ih =>
    intro pos s s' done hs h
    simp only [mkvLoop, bind_eq_ok] at h
    obtain ⟨r, _, h⟩ := h
    cases r with
    | none =>
      simp only [pure_eq_ok, Except.ok.injEq] at h
      exact h ▸ hs
    | some e =>
      dsimp only at h
      split at h
      · simp only [pure_eq_ok, Except.ok.injEq] at h
        exact h ▸ hs
      · simp only [bind_eq_ok] at h
        obtain ⟨⟨data, q⟩, _, ⟨s1, done1⟩, hi, h⟩ := h
        have h1 : SameMkv ts s1.tracks := by
          rcases mkvFindItem_put hi with e | ⟨n, t, e, hn, hf, hsig⟩
          · rw [e]; exact hs
          · rw [e]
            refine ⟨dictPut_distinct hs.distinct _ _, fun k => ?_, fun k => ?_⟩
            · rw [mkvTrackOf_put]
              split
              · rename_i e; subst e
                exact ⟨hn.trans (hs.plain k).1, hf.trans (hs.plain k).2⟩
              · exact hs.plain k
            · rw [mkvTrackOf_put]
              split
              · rename_i e; subst e
                exact hsig.trans (hs.sig k)
              · exact hs.sig k
        dsimp only at h
        split at h
        · simp only [pure_eq_ok, Except.ok.injEq] at h
          exact h ▸ h1
        · exact ih h1 h

theorem signature_nil {sig data : Bytes} (h : IsSignature sig data) : sig = [] ↔ data = [] := by
  obtain ⟨h1, h2, _⟩ := h
  constructor
  · rintro rfl
    exact (h2 (by simp)).symm
  · rintro rfl
    exact List.prefix_nil.1 h1

/-- C105: the same for MKV. -/
theorem mkv_checked {dig : Nat → Bool} {lower : Str → Str} {lead info media : List MkvTop} {seg : Bytes} (hp : PlainMkv lead seg info media)
    (hn : ∀ n, HasTrack (mkvFine (lead ++ .part (.enter segmentId seg) :: (info ++ media))) n → n < 2 ^ 16)
    {app name path p : Str} {big : Bool} {movie srs : Bytes}
    (hk : MediaFile.kind dig lower ⟨path, mkvFile (lead ++ .part (.enter segmentId seg) :: (info ++ media)), none⟩ = .ok .mkv)
    (h : srsMkvCreate app name (mkvFile (lead ++ .part (.enter segmentId seg) :: (info ++ media))) big (some movie) = .ok srs) (hl : 14 ≤ srs.length) :
    ∃ offs, Places dig lower p srs offs ∧
      SampleSize dig lower p srs (mkvFile (lead ++ .part (.enter segmentId seg) :: (info ++ media))).length ∧ (∀ o ∈ offs, o ≠ 0) ∧
      (offs ≠ [] ↔ ∃ n, HasTrack (mkvFine (lead ++ .part (.enter segmentId seg) :: (info ++ media))) n ∧
        mkvTrackData (mkvFine (lead ++ .part (.enter segmentId seg) :: (info ++ media))) n ≠ []) := by
  have hkind := mkv_srs_kind (srsPath := p) hk h hl
  unfold srsMkvCreate at h
  split at h
  · simp at h
  simp only [bind_eq_ok] at h
  obtain ⟨⟨crc, tracks⟩, hprof, h⟩ := h
  dsimp only at h
  split at h
  · simp at h
  simp only [bind_eq_ok] at h
  obtain ⟨tr, ⟨ts1, hfind, htr⟩, h⟩ := h
  split at htr
  · simp [throw, throwThe, MonadExceptOf.throw] at htr
  rename_i hun
  simp only [pure_eq_ok, Except.ok.injEq] at htr
  subst htr
  obtain ⟨rfl, ht⟩ := mkvProfile_ok (plainMkv_shape hp).prof hp.fits hprof
  unfold mkvFind mkvWalk at hfind
  simp only [bind_eq_ok] at hfind
  obtain ⟨s1, hloop, hfind⟩ := hfind
  simp only [pure_eq_ok, Except.ok.injEq] at hfind
  subst hfind
  have hsame : SameMkv tracks s1.tracks := mkvLoop_same ⟨ht.distinct, fun n => by
    unfold mkvTrackOf
    cases hg : movGet tracks n with
    | none => exact ⟨rfl, rfl⟩
    | some t =>
      have := (ht.data n t (movGet_eq_some hg)).2
      rw [Option.getD_some, this]
      exact ⟨rfl, rfl⟩, fun _ => rfl⟩ hloop
  -- the tracks with data
  have hwhich : ∀ n, (mkvTrackOf s1.tracks n).sig ≠ [] ↔
      HasTrack (mkvFine (lead ++ .part (.enter segmentId seg) :: (info ++ media))) n ∧
        mkvTrackData (mkvFine (lead ++ .part (.enter segmentId seg) :: (info ++ media))) n ≠ [] := by
    intro n
    rw [hsame.sig n]
    constructor
    · intro hs
      unfold mkvTrackOf at hs
      cases hg : movGet tracks n with
      | none => rw [hg] at hs; exact absurd rfl hs
      | some t =>
        rw [hg] at hs
        have hm := movGet_eq_some hg
        exact ⟨(ht.keys n).1 (List.mem_map.2 ⟨_, hm, rfl⟩), fun e => hs ((signature_nil (ht.data n t hm).1).2 e)⟩
    · rintro ⟨h1, h2⟩
      obtain ⟨x, hx, rfl⟩ := List.mem_map.1 ((ht.keys n).2 h1)
      rw [mkvTrackOf_mem ht.distinct hx]
      exact fun e => h2 ((signature_nil (ht.data x.1 x.2 hx).1).1 e)
  have hsub : ∀ x ∈ s1.tracks.filter (fun t => t.2.sig ≠ []), x ∈ s1.tracks ∧ x.2.sig ≠ [] := by
    intro x hx
    obtain ⟨h1, h2⟩ := List.mem_filter.1 hx
    exact ⟨h1, by simpa using h2⟩
  obtain ⟨hload, _⟩ := mkv_srs_rebuilds hp (fun x hx => by
    obtain ⟨m1, m2⟩ := hsub x hx
    have e := mkvTrackOf_mem hsame.distinct m1
    have hpl := hsame.plain x.1
    have hw := hwhich x.1
    rw [e] at hpl hw
    have := hn _ (hw.1 m2).1
    exact ⟨hpl.1.symm, by omega, hpl.2⟩) (hsame.distinct.sublist List.filter_sublist) h
  have htold : srsTold .mkv srs = .ok (some (mkvFile (lead ++ .part (.enter segmentId seg) :: (info ++ media))).length,
      (s1.tracks.filter (fun t => t.2.sig ≠ [])).map fun t => t.2.offset) := by
    unfold srsTold
    dsimp only
    rw [hload, ok_bind]
    simp [Function.comp_def, pure_eq_ok, loadTrack]
  refine ⟨_, ⟨_, _, hkind, by simp, by simp, htold⟩, ⟨_, _, hkind, htold⟩, ?_, ?_⟩
  · intro o ho
    obtain ⟨x, hx, rfl⟩ := List.mem_map.1 ho
    obtain ⟨m1, m2⟩ := hsub x hx
    intro e
    exact hun (missed_mkv.2 ⟨x, m1, m2, e⟩)
  · constructor
    · intro hne
      cases hf : s1.tracks.filter (fun t => t.2.sig ≠ []) with
      | nil => rw [hf] at hne; simp at hne
      | cons x l =>
        obtain ⟨m1, m2⟩ := hsub x (by rw [hf]; simp)
        refine ⟨x.1, (hwhich x.1).1 ?_⟩
        rw [mkvTrackOf_mem hsame.distinct m1]
        exact m2
    · rintro ⟨n, hne⟩
      have hs := (hwhich n).2 hne
      have hk : ∃ t, movGet s1.tracks n = some t := by
        cases hg : movGet s1.tracks n with
        | none => unfold mkvTrackOf at hs; rw [hg] at hs; exact absurd rfl hs
        | some t => exact ⟨t, rfl⟩
      obtain ⟨t, hg⟩ := hk
      have hx := movGet_eq_some hg
      have e := mkvTrackOf_mem hsame.distinct hx
      dsimp only at e
      rw [e] at hs
      intro e
      have : (n, t) ∈ s1.tracks.filter (fun t => t.2.sig ≠ []) := List.mem_filter.2 ⟨hx, by simpa using hs⟩
      rw [List.map_eq_nil_iff.1 e] at this
      simp at this

/-! ### Examples -/

set_option maxRecDepth 100000 in
/-- The hypotheses of `avi_checked` are met. -/
example : ∃ srs offs, srsAviCreate [0x61] [0x73] (aviBytes aviExample) false (some (aviBytes (Movie.parts (moviePre ++ moviePost)))) = .ok srs ∧
    Places exDigit id (str "/x/s.srs") srs offs ∧ offs ≠ [] ∧ ∀ o ∈ offs, o ≠ 0 := by
  have hm : (match srsAviCreate [0x61] [0x73] (aviBytes aviExample) false (some (aviBytes (Movie.parts (moviePre ++ moviePost)))) with
      | .error _ => false
      | .ok srs => decide (14 ≤ srs.length)) = true := by decide +kernel
  cases hs : srsAviCreate [0x61] [0x73] (aviBytes aviExample) false (some (aviBytes (Movie.parts (moviePre ++ moviePost)))) with
  | error e => rw [hs] at hm; simp at hm
  | ok srs =>
    rw [hs] at hm
    obtain ⟨offs, h1, _, h2, h3⟩ := avi_checked (dig := exDigit) (lower := id) (path := str "/x/s.avi") (p := str "/x/s.srs") aviExample_plain
      (by decide +kernel) hs (by simpa using hm) (by decide +kernel)
    exact ⟨srs, offs, rfl, h1, h3.2 ⟨0, by decide⟩, h2⟩

set_option maxRecDepth 100000 in
/-- The hypotheses of `mkv_checked` are met. -/
example : ∃ srs offs, srsMkvCreate [97] [98] MkvExample.file false (some MkvExample.movie) = .ok srs ∧
    Places exDigit id (str "/x/s.srs") srs offs ∧ ∀ o ∈ offs, o ≠ 0 := by
  have hm : (match srsMkvCreate [97] [98] MkvExample.file false (some MkvExample.movie) with
      | .error _ => false
      | .ok srs => decide (14 ≤ srs.length)) = true := by decide +kernel
  cases hs : srsMkvCreate [97] [98] MkvExample.file false (some MkvExample.movie) with
  | error e => rw [hs] at hm; simp at hm
  | ok srs =>
    rw [hs] at hm
    obtain ⟨offs, h1, _, h2, _⟩ := mkv_checked (dig := exDigit) (lower := id) (path := str "/x/s.mkv") (p := str "/x/s.srs") example_mkv
      (fun n h => by rcases example_tracks h with rfl | rfl <;> decide) (by decide +kernel) hs (by simpa using hm)
    exact ⟨srs, offs, rfl, h1, h2⟩

set_option maxRecDepth 100000 in
/-- The hypotheses of `mp4_checked` are met. -/
example : ∃ srs offs, srsMp4Create [97] [98] Mp4Example.file false (some (topBytes Mp4Example.movie)) = .ok srs ∧
    Places exDigit id (str "/x/s.srs") srs offs ∧ ∀ o ∈ offs, o ≠ 0 := by
  have hm : (match srsMp4Create [97] [98] Mp4Example.file false (some (topBytes Mp4Example.movie)) with
      | .error _ => false
      | .ok srs => decide (14 ≤ srs.length ∧ srs.length < 2 ^ 63)) = true := by decide +kernel
  cases hs : srsMp4Create [97] [98] Mp4Example.file false (some (topBytes Mp4Example.movie)) with
  | error e => rw [hs] at hm; simp at hm
  | ok srs =>
    rw [hs] at hm
    simp only [decide_eq_true_eq] at hm
    obtain ⟨offs, h1, _, h2, _⟩ := mp4_checked (dig := exDigit) (lower := id) (path := str "/x/s.mp4") (p := str "/x/s.srs") example_plain
      (by decide) (by decide +kernel) (by decide +kernel) hs hm.1 hm.2
    exact ⟨srs, offs, rfl, h1, h2⟩

end Rescene.Props
