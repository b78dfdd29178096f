import Verif.Lemmas.MovFind
import Verif.Props.MovEnds
/-
C64: an MP4 sample that was cut out of a movie is rebuilt from the movie.
-/
namespace Rescene.Props
open Rescene Rescene.Spec

theorem flatMap_samples (l : List (Nat × List Nat)) : (l.map fun c => (⟨c.1, c.2⟩ : MovChunk)).flatMap (·.samples) = l.flatMap (·.2) := by
  rw [List.flatMap_map]

theorem flatMap_mdata (file : Bytes) (t : MovLayout) :
    (t.chunks.map fun c => (⟨c.1, c.2⟩ : MovChunk)).flatMap (mdata file) = layoutData file t := by
  rw [List.flatMap_map]
  rfl

theorem prefix_take {a b : Bytes} (h : a <+: b) : b.take a.length = a := (List.prefix_iff_eq_take.1 h).symm

/-- One track is found where it was cut, and read from there. -/
theorem track_found {file d : Bytes} {m : MovTrack} {u : MovLayout} (hbig : file.length < 2 ^ 63) (hm : TrackIs file m u)
    (hne : u.chunks ≠ []) (hs : ∀ c ∈ u.chunks, c.2 ≠ [] ∧ 0 < c.1 ∧ c.1 + c.2.sum ≤ file.length)
    (hpw : u.chunks.Pairwise fun a b => a.1 + a.2.sum ≤ b.1) (hcut : CutMp4 d file u) :
    ∃ o : Nat, 0 < o ∧ mp4FindTrack file (d.take 256) m.tables = .ok (some o) ∧
      ∀ t : TrackData, t.matchOffset = o → t.dataLength = d.length → mp4ExtractTrack file t m.tables = .ok d := by
  obtain ⟨p, ⟨a, s, b, ea, rfl⟩, hd, hmin⟩ := hcut
  have hch := movChunks_ok hm.tables
  generalize hl : (u.chunks.map fun c => (⟨c.1, c.2⟩ : MovChunk)) = l at hch
  have hin : AllInside file l := by
    subst hl
    intro c hc
    obtain ⟨x, hx, rfl⟩ := List.mem_map.1 hc
    exact (hs x hx).2.2
  have hsne : ∀ c ∈ l, c.samples ≠ [] := by
    subst hl
    intro c hc
    obtain ⟨x, hx, rfl⟩ := List.mem_map.1 hc
    exact (hs x hx).1
  have hpos : ∀ c ∈ l, 0 < c.off := by
    subst hl
    intro c hc
    obtain ⟨x, hx, rfl⟩ := List.mem_map.1 hc
    exact (hs x hx).2.1
  have hpw' : l.Pairwise fun a b => a.off + a.samples.sum ≤ b.off := by
    subst hl
    rw [List.pairwise_map]
    exact hpw
  have hdata : l.flatMap (mdata file) = layoutData file u := by subst hl; exact flatMap_mdata file u
  have hflat : l.flatMap (·.samples) = u.chunks.flatMap (·.2) := by subst hl; exact flatMap_samples _
  have hlne : l ≠ [] := by subst hl; simpa using hne
  have hat : ∀ x ∈ cursors 0 l, x.data file = (layoutData file u).drop x.pos := by
    intro x hx
    rw [(cursor_data hin x hx).1, hdata, Nat.sub_zero]
  -- the place of the cut is a cursor that matches
  obtain ⟨y, hy, hyp⟩ := start_cursor (l := l) (pos := 0) (hflat.trans ea)
  have hym : Cursor.matches file (d.take 256) y = true := by
    rw [Cursor.matches, hat y hy, hyp, Nat.zero_add, beq_iff_eq]
    exact prefix_take ((List.take_prefix 256 d).trans hd)
  cases hf : (cursors 0 l).find? (Cursor.matches file (d.take 256)) with
  | none =>
    rw [List.find?_eq_none] at hf
    exact absurd hym (hf y hy)
  | some x =>
    obtain ⟨hxm, as, bs, e, hno⟩ := List.find?_eq_some_iff_append.1 hf
    have hx : x ∈ cursors 0 l := by rw [e]; simp
    have hle : x.pos ≤ y.pos := by
      have hsort := cursors_sorted (l := l) (pos := 0)
      rw [e, List.pairwise_append, List.pairwise_cons] at hsort
      rw [e, List.mem_append, List.mem_cons] at hy
      rcases hy with hy | rfl | hy
      · have := hno y hy
        rw [hym] at this
        simp at this
      · exact Nat.le_refl _
      · exact hsort.2.1.1 y hy
    have hge : a.sum ≤ x.pos := by
      obtain ⟨a', s', b', e', hp'⟩ := cursors_start x hx
      refine hmin x.pos ⟨a', s', b', by rw [← hflat, e'], by rw [hp', Nat.zero_add]⟩ ?_
      rw [Cursor.matches, hat x hx, beq_iff_eq] at hxm
      rw [← hxm]
      exact List.take_prefix _ _
    have hxp : x.pos = a.sum := by omega
    have hxo : 0 < x.off := by
      have : ∀ {l : List MovChunk} {pos : Nat}, (∀ c ∈ l, 0 < c.off) → ∀ x ∈ cursors pos l, 0 < x.off := by
        intro l
        induction l with
        | nil => intro _ _ x hx; simp [cursors] at hx
        | cons c l ih =>
          intro pos h x hx
          rw [cursors, List.mem_append] at hx
          rcases hx with hx | hx
          · obtain ⟨a, s, b, _, rfl⟩ := chunkCursors_mem x hx
            have := h c (by simp)
            show 0 < c.off + a.sum
            omega
          · exact ih (fun c hc => h c (by simp [hc])) x hx
      exact this hpos x hx
    refine ⟨x.off, hxo, ?_, ?_⟩
    · unfold mp4FindTrack
      rw [hch, ok_bind, if_neg hlne, findInChunks_ok (pos := 0) hbig hin hsne, hf]
      rfl
    · intro t ht hlen
      obtain ⟨c, rest, left, h1, h2, h3, h4, h5⟩ := seek_cursor hin hpw' x hx
      unfold mp4ExtractTrack
      rw [hch, ok_bind, ht, show (x.off : Int).toNat = x.off from rfl, h1]
      dsimp only
      rw [h2, ok_bind, streamRead_ok (x := ⟨0, x.off, left, rest⟩) hbig h3 h4, Cursor.data]
      dsimp only
      rw [h5, hat x hx, hxp, hlen]
      exact congrArg _ (prefix_take hd)

/-- The tracks of the movie by number. -/
theorem areTracks_get {file : Bytes} : ∀ {L : List (Nat × MovTrack)} {tracks : List MovLayout}, AreTracks file L tracks →
    tracks.Pairwise (fun a b => a.id ≠ b.id) → ∀ u ∈ tracks, ∃ m, movGet L u.id = some m ∧ TrackIs file m u
  | [], [], _, _, _, hu => absurd hu List.not_mem_nil
  | [], _ :: _, h, _, _, _ => h.elim
  | _ :: _, [], h, _, _, _ => h.elim
  | (n, m) :: l, t :: ts, h, hpw, u, hu => by
    obtain ⟨h1, h2, h3⟩ := h
    rw [List.pairwise_cons] at hpw
    rw [List.mem_cons] at hu
    rcases hu with rfl | hu
    · exact ⟨m, by rw [movGet, List.find?_cons, h1]; simp, h2⟩
    · obtain ⟨m', h4, h5⟩ := areTracks_get h3 hpw.2 u hu
      refine ⟨m', ?_, h5⟩
      rw [movGet, List.find?_cons, h1, show (t.id == u.id) = false by simpa using hpw.1 u hu]
      exact h4

theorem movGet_some_mem {α : Type} {l : List (Nat × α)} {n : Nat} {t : α} (h : movGet l n = some t) : (n, t) ∈ l := by
  unfold movGet at h
  rw [Option.map_eq_some_iff] at h
  obtain ⟨x, hx, rfl⟩ := h
  have h1 := List.mem_of_find?_eq_some hx
  have h2 := List.find?_some hx
  rw [beq_iff_eq] at h2
  rw [← h2]
  exact h1

theorem mem_movGet {α : Type} : ∀ {l : List (Nat × α)}, l.Pairwise (fun a b => a.1 ≠ b.1) → ∀ {n : Nat} {t : α}, (n, t) ∈ l →
    movGet l n = some t
  | x :: l, hpw, n, t, h => by
    rw [List.pairwise_cons] at hpw
    rw [List.mem_cons] at h
    unfold movGet
    rw [List.find?_cons]
    rcases h with rfl | h
    · simp
    · rw [show (x.1 == n) = false by simpa using hpw.1 _ h]
      exact mem_movGet hpw.2 h

/-- The track with the place that was found. -/
def located (o : Nat → Nat) (x : Nat × TrackData) : Nat × TrackData := (x.1, { x.2 with matchOffset := o x.1 })

theorem findLoop_ok {main : Bytes} {o : Nat → Nat} : ∀ {L : List (Nat × MovTrack)} {trk : Tracks},
    trk.Pairwise (fun a b => a.1 ≠ b.1) →
    (∀ x ∈ L, ∀ t, (x.1, t) ∈ trk → mp4FindTrack main t.sig x.2.tables = .ok (some (o x.1))) →
    mp4FindLoop main L trk = .ok (trk.map fun x => if x.1 ∈ L.map (·.1) then located o x else x)
  | [], trk, _, _ => by simp [mp4FindLoop]
  | (n, m) :: L, trk, hpw, h => by
    rw [mp4FindLoop.eq_def]
    dsimp only
    cases hg : movGet trk n with
    | none =>
      dsimp only
      rw [findLoop_ok hpw fun x hx => h x (by simp [hx])]
      congr 1
      refine List.map_congr_left fun x hx => ?_
      have hne : x.1 ≠ n := by
        rw [movGet_none] at hg
        intro e
        exact hg (e ▸ List.mem_map.2 ⟨x, hx, rfl⟩)
      by_cases hl : x.1 ∈ L.map (·.1)
      · rw [if_pos hl, if_pos (show x.1 ∈ List.map (·.1) ((n, m) :: L) by rw [List.map_cons]; exact List.mem_cons_of_mem _ hl)]
      · rw [if_neg hl, if_neg (show ¬ x.1 ∈ List.map (·.1) ((n, m) :: L) by
          rw [List.map_cons, List.mem_cons]; exact fun h => h.elim hne hl)]
    | some t =>
      have hm := movGet_some_mem hg
      dsimp only
      rw [h (n, m) (by simp) t hm, ok_bind]
      dsimp only
      have e : movSet trk n { t with matchOffset := (o n : Int) } = trk.map fun x => if x.1 = n then located o x else x := by
        refine List.map_congr_left fun x hx => ?_
        split
        · rename_i he
          have : x = (n, t) := by
            have h1 := mem_movGet hpw (n := n) (t := x.2) (by rw [← he]; exact hx)
            rw [hg] at h1
            injection h1 with h1
            rw [h1, ← he]
          rw [this]
          rfl
        · rfl
      rw [e, findLoop_ok]
      · rw [List.map_map]
        congr 1
        refine List.map_congr_left fun x _ => ?_
        rw [Function.comp_apply]
        by_cases hx : x.1 = n
        · rw [if_pos hx, if_pos (show x.1 ∈ List.map (·.1) ((n, m) :: L) by rw [hx]; simp)]
          split <;> rfl
        · rw [if_neg hx]
          by_cases hl : x.1 ∈ L.map (·.1)
          · rw [if_pos hl, if_pos (show x.1 ∈ List.map (·.1) ((n, m) :: L) by rw [List.map_cons]; exact List.mem_cons_of_mem _ hl)]
          · rw [if_neg hl, if_neg (show ¬ x.1 ∈ List.map (·.1) ((n, m) :: L) by
              rw [List.map_cons, List.mem_cons]; exact fun h => h.elim hx hl)]
      · rw [List.pairwise_map]
        refine hpw.imp fun {a b} hab => ?_
        have : ∀ x : Nat × TrackData, (if x.1 = n then located o x else x).1 = x.1 := by intro x; split <;> rfl
        rw [this, this]
        exact hab
      · intro y hy t' ht'
        obtain ⟨x, hx, e'⟩ := List.mem_map.1 ht'
        have h1 := h y (by simp [hy]) x.2 (by
          have : y.1 = x.1 := by
            have := congrArg Prod.fst e'
            split at this <;> exact this.symm
          rw [this]; exact hx)
        have h2 : t'.sig = x.2.sig := by
          have := congrArg (fun z : Nat × TrackData => z.2.sig) e'
          split at this <;> exact this.symm
        rw [h2]
        exact h1

theorem extractLoop_ok {main : Bytes} {L : List (Nat × MovTrack)} {dd : Nat → Bytes} : ∀ {trk : Tracks} {files : TrackFiles},
    (∀ x ∈ trk, ∃ m, movGet L x.1 = some m ∧ mp4ExtractTrack main x.2 m.tables = .ok (dd x.1)) →
    ∃ fl, mp4ExtractLoop main L trk files = .ok fl ∧ (∀ x ∈ trk, fl x.1 = some (dd x.1)) ∧
      ∀ n, n ∉ trk.map (·.1) → fl n = files n
  | [], files, _ => ⟨files, rfl, by simp, fun _ _ => rfl⟩
  | (n, t) :: trk, files, h => by
    obtain ⟨m, h1, h2⟩ := h (n, t) (by simp)
    obtain ⟨fl, h3, h4, h5⟩ := extractLoop_ok (trk := trk) (files := files.set n (dd n)) fun x hx => h x (by simp [hx])
    refine ⟨fl, ?_, ?_, ?_⟩
    · rw [mp4ExtractLoop.eq_def]
      dsimp only
      rw [h1]
      dsimp only
      rw [h2, ok_bind]
      exact h3
    · intro x hx
      by_cases hn : x.1 ∈ trk.map (·.1)
      · obtain ⟨y, hy, e⟩ := List.mem_map.1 hn
        rw [← e]
        exact h4 y hy
      · rw [List.mem_cons] at hx
        rcases hx with rfl | hx
        · rw [h5 _ hn]
          simp [TrackFiles.set]
        · exact absurd (List.mem_map.2 ⟨x, hx, rfl⟩) hn
    · intro k hk
      rw [List.map_cons, List.mem_cons] at hk
      rw [h5 k (fun h => hk (Or.inr h))]
      simp only [TrackFiles.set]
      rw [if_neg (fun h => hk (Or.inl h))]

/-- Finding and reading the tracks in a movie. -/
theorem movie_found {tops : List MovTop} {mtracks tracks : List MovLayout} {sample : Bytes} (hm : Mp4Movie tops mtracks)
    (hcut : ∀ t ∈ tracks, ∃ u ∈ mtracks, u.id = t.id ∧ CutMp4 (layoutData sample t) (topBytes tops) u)
    (hd : tracks.Pairwise fun a b => a.id ≠ b.id) :
    ∃ o : Nat → Nat, (∀ t ∈ tracks, 0 < o t.id) ∧
      (∀ trk : Tracks, trk.Pairwise (fun a b => a.1 ≠ b.1) →
        (∀ x ∈ trk, ∃ t ∈ tracks, x.1 = t.id ∧ x.2.sig = (layoutData sample t).take 256) →
        mp4Find trk (topBytes tops) = .ok (trk.map (located o))) ∧
      (∀ trk : Tracks, (∀ x ∈ trk, ∃ t ∈ tracks, x.1 = t.id ∧ x.2.matchOffset = o t.id ∧ x.2.dataLength = (layoutData sample t).length) →
        ∃ fl, mp4Extract trk (topBytes tops) = .ok fl ∧
          ∀ x ∈ trk, ∀ t ∈ tracks, x.1 = t.id → fl x.1 = some (layoutData sample t)) := by
  obtain ⟨c, o', mm, L, cur, p, h1, h2, _⟩ := movProfile_ok (crc := false) hm.ok.ok hm.ok.ends
    (flatten_fits fun f ty i hi => (hm.ok.inner f ty i hi).1) hm.size hm.tables fun t ht c hc => (hm.samples t ht c hc).2.2
  have hkeys := h2.keys
  have hLpw : L.Pairwise fun a b => a.1 ≠ b.1 := by
    have : (L.map (·.1)).Pairwise (· ≠ ·) := by
      rw [hkeys, List.pairwise_map]
      exact hm.tables.distinct
    exact List.pairwise_map.1 this
  have hex : ∀ n, ∃ od : Nat × Bytes, ∀ t ∈ tracks, t.id = n → od.2 = layoutData sample t ∧ 0 < od.1 ∧
      ∃ m, movGet L n = some m ∧ mp4FindTrack (topBytes tops) ((layoutData sample t).take 256) m.tables = .ok (some od.1) ∧
        ∀ td : TrackData, td.matchOffset = od.1 → td.dataLength = (layoutData sample t).length →
          mp4ExtractTrack (topBytes tops) td m.tables = .ok (layoutData sample t) := by
    intro n
    by_cases hn : ∃ t ∈ tracks, t.id = n
    · obtain ⟨t, ht, rfl⟩ := hn
      obtain ⟨u, hu, hid, hc⟩ := hcut t ht
      obtain ⟨m, hg, hi⟩ := areTracks_get h2 hm.tables.distinct u hu
      obtain ⟨o, h3, h4, h5⟩ := track_found hm.size hi (hm.some u hu) (hm.samples u hu) (hm.ordered u hu) hc
      refine ⟨(o, layoutData sample t), fun t' ht' e => ?_⟩
      have : t' = t := by
        by_cases he : t' = t
        · exact he
        · have h6 : tracks.Pairwise fun a b => b.id ≠ a.id := hd.imp fun h => h.symm
          exact absurd e (List.Pairwise.forall_of_forall_of_flip (R := fun a b => a ≠ b → a.id ≠ b.id)
            (fun _ _ h => absurd rfl h)
            (List.Pairwise.imp (R := fun a b : MovLayout => a.id ≠ b.id) (S := fun a b => a ≠ b → a.id ≠ b.id) (fun h _ => h) hd)
            (List.Pairwise.imp (R := fun a b : MovLayout => b.id ≠ a.id) (S := fun a b => b ≠ a → b.id ≠ a.id) (fun h _ => h) h6) ht' ht he)
      subst this
      exact ⟨rfl, h3, m, by rw [← hid]; exact hg, h4, h5⟩
    · exact ⟨(0, []), fun t ht e => absurd ⟨t, ht, e⟩ hn⟩
  obtain ⟨od, hod⟩ := Classical.axiomOfChoice hex
  refine ⟨fun n => (od n).1, fun t ht => (hod t.id t ht rfl).2.1, ?_, ?_⟩
  · intro trk hpw hs
    unfold mp4Find
    rw [show movProfile false (topBytes tops) = _ from h1, ok_bind]
    dsimp only
    rw [findLoop_ok (o := fun n => (od n).1) hpw]
    · congr 1
      refine List.map_congr_left fun x hx => ?_
      obtain ⟨t, ht, e, _⟩ := hs x hx
      obtain ⟨u, hu, hid, _⟩ := hcut t ht
      rw [if_pos]
      rw [hkeys, e, ← hid]
      exact List.mem_map.2 ⟨u, hu, rfl⟩
    · intro x hx t' ht'
      obtain ⟨t, ht, e, es⟩ := hs _ ht'
      obtain ⟨_, _, m, hg, hf, _⟩ := hod t.id t ht rfl
      dsimp only at e es
      have hgx := mem_movGet hLpw (n := x.1) (t := x.2) hx
      rw [e, hg] at hgx
      injection hgx with hgx
      rw [es, ← hgx, e]
      exact hf
  · intro trk hs
    unfold mp4Extract
    rw [show movProfile false (topBytes tops) = _ from h1, ok_bind]
    dsimp only
    obtain ⟨fl, h3, h4, _⟩ := extractLoop_ok (main := topBytes tops) (L := L) (dd := fun n => (od n).2) (trk := trk)
      (files := fun _ => none) (by
        intro x hx
        obtain ⟨t, ht, e, eo, el⟩ := hs x hx
        obtain ⟨h5, _, m, hg, _, hE⟩ := hod t.id t ht rfl
        refine ⟨m, by rw [e]; exact hg, ?_⟩
        rw [hE x.2 eo el, e, h5])
    refine ⟨fl, h3, fun x hx t ht e => ?_⟩
    rw [h4 x hx, e, (hod t.id t ht rfl).1]

/-- With the tracks at the places that were found, the sample is rebuilt. -/
theorem located_rebuilt {before after : List MovTop} {form : MovForm} {media : Bytes} {tracks mtracks : List MovLayout}
    {tops : List MovTop} (hm : Mp4Movie tops mtracks)
    (hcut : ∀ t ∈ tracks, ∃ u ∈ mtracks, u.id = t.id ∧ CutMp4 (layoutData (mp4Bytes before form media after) t) (topBytes tops) u)
    (hd : tracks.Pairwise fun a b => a.id ≠ b.id) :
    ∃ o : Nat → Nat, (∀ t ∈ tracks, 0 < o t.id) ∧
      (∀ trk : Tracks, trk.Pairwise (fun a b => a.1 ≠ b.1) →
        (∀ x ∈ trk, ∃ t ∈ tracks, x.1 = t.id ∧ x.2.sig = (layoutData (mp4Bytes before form media after) t).take 256) →
        mp4Find trk (topBytes tops) = .ok (trk.map (located o))) ∧
      ∀ (srs : Bytes) (trk : Tracks) (f : FileData) (ig : Bool), trk.map (·.1) = tracks.map (·.id) →
        (∀ x ∈ trk, ∃ t ∈ tracks, x.1 = t.id ∧ x.2.sig = (layoutData (mp4Bytes before form media after) t).take 256 ∧
          (x.2.matchOffset = 0 ∨ x.2.matchOffset = o t.id) ∧
          x.2.dataLength = (layoutData (mp4Bytes before form media after) t).length) →
        mp4LoadSrs srs = .ok (f, trk) →
        f.size = (mp4Bytes before form media after).length →
        f.crc = (crc32 (mp4Bytes before form media after) 0).toNat →
        (∀ (ts : Tracks) (files : TrackFiles), ts.map (·.1) = tracks.map (·.id) →
          (∀ t ∈ tracks, files t.id = some (layoutData (mp4Bytes before form media after) t)) →
          mp4Rebuild srs ts files = .ok (mp4Bytes before form media after, crc32 (mp4Bytes before form media after) 0)) →
        srsMp4Reconstruct srs (topBytes tops) ig = .ok ⟨mp4Bytes before form media after,
          (mp4Bytes before form media after).length, (crc32 (mp4Bytes before form media after) 0).toNat, true⟩ := by
  obtain ⟨o, ho, hfind, hext⟩ := movie_found (sample := mp4Bytes before form media after) hm hcut hd
  refine ⟨o, ho, hfind, ?_⟩
  intro srs trk f ig hkeys htrk hload hsize hcrc hreb
  generalize mp4Bytes before form media after = sample at *
  have hpw : trk.Pairwise fun a b => a.1 ≠ b.1 := by
    have : (trk.map (·.1)).Pairwise (· ≠ ·) := by
      rw [hkeys, List.pairwise_map]
      exact hd
    exact List.pairwise_map.1 this
  -- the rest, when the places are known
  have hrest : ∀ tr : Tracks, tr.map (·.1) = tracks.map (·.id) →
      (∀ x ∈ tr, ∃ t ∈ tracks, x.1 = t.id ∧ x.2.matchOffset = o t.id ∧ x.2.dataLength = (layoutData sample t).length) →
      (do
        let files ← mp4Extract tr (topBytes tops)
        if tr.any (fun t => t.2.sig ≠ [] && (match files t.1 with
            | none => true
            | some b => decide (b.length < t.2.dataLength))) then throw .other
        else do
          let (out, crc) ← mp4Rebuild srs tr files
          return (⟨out, f.size, f.crc, crc.toNat == f.crc⟩ : SrsResult) : Res SrsResult) =
      .ok ⟨sample, sample.length, (crc32 sample 0).toNat, true⟩ := by
    intro tr hk htr
    obtain ⟨fl, h1, h2⟩ := hext tr htr
    rw [h1, ok_bind, if_neg, hreb tr fl hk, ok_bind]
    · dsimp only
      rw [hsize, hcrc, beq_self_eq_true]
      rfl
    · intro t ht
      have : t.id ∈ tr.map (·.1) := by rw [hk]; exact List.mem_map.2 ⟨t, ht, rfl⟩
      obtain ⟨x, hx, e⟩ := List.mem_map.1 this
      rw [← e]
      exact h2 x hx t ht e
    · rw [Bool.not_eq_true, List.any_eq_false]
      intro x hx
      obtain ⟨t, ht, e, _, el⟩ := htr x hx
      rw [h2 x hx t ht e, el]
      simp
  unfold srsMp4Reconstruct
  rw [hload, ok_bind]
  dsimp only
  by_cases hz : ig = true ∨ trk.any (fun t => t.2.matchOffset == 0) = true
  · rw [if_pos hz, hfind trk hpw (fun x hx => by obtain ⟨t, ht, e, es, _⟩ := htrk x hx; exact ⟨t, ht, e, es⟩), ok_bind, if_neg]
    · refine hrest (trk.map (located o)) ?_ ?_
      · rw [List.map_map, ← hkeys]
        rfl
      · intro x hx
        obtain ⟨y, hy, rfl⟩ := List.mem_map.1 hx
        obtain ⟨t, ht, e, es, _, el⟩ := htrk y hy
        exact ⟨t, ht, e, by show ((o y.1 : Nat) : Int) = o t.id; rw [e], el⟩
    · rw [Bool.not_eq_true, videoUnlocated, List.any_eq_false]
      intro x hx
      obtain ⟨y, hy, rfl⟩ := List.mem_map.1 hx
      obtain ⟨t, ht, e, _⟩ := htrk y hy
      have := ho t ht
      rw [← e] at this
      have h0 : ((located o y).2.matchOffset == 0) = false := by
        show (((o y.1 : Nat) : Int) == 0) = false
        simp; omega
      rw [h0, Bool.and_false]
      simp
  · rw [if_neg hz, ok_bind]
    refine hrest trk hkeys fun x hx => ?_
    obtain ⟨t, ht, e, es, hoff, el⟩ := htrk x hx
    refine ⟨t, ht, e, ?_, el⟩
    rcases hoff with h0 | h0
    · exact absurd (Or.inr (List.any_eq_true.2 ⟨x, hx, by rw [h0]; rfl⟩)) hz
    · exact h0

/-- C64.  When the data of each track of a sample was cut out of a track of the movie with the same
number, at the start of a sample and where its first 256 bytes come first, then rebuilding the sample from its
SRS and the movie gives it back, byte for byte, and reports it as right. -/
theorem mp4_cut_rebuilt_partial {before after : List MovTop} {form : MovForm} {media : Bytes} {tracks : List MovLayout}
    (hp : PlainMp4 before form media after tracks) (hid : ∀ t ∈ tracks, t.id < 2 ^ 16) {app name : Str} {big : Bool} {srs : Bytes}
    (h : srsMp4Create app name (mp4Bytes before form media after) big none = .ok srs) (hbig : srs.length < 2 ^ 63)
    {tops : List MovTop} {mtracks : List MovLayout} (hm : Mp4Movie tops mtracks)
    (hcut : ∀ t ∈ tracks, ∃ u ∈ mtracks, u.id = t.id ∧ CutMp4 (layoutData (mp4Bytes before form media after) t) (topBytes tops) u)
    (ignoreOffset : Bool) :
    srsMp4Reconstruct srs (topBytes tops) ignoreOffset = .ok ⟨mp4Bytes before form media after,
      (mp4Bytes before form media after).length, (crc32 (mp4Bytes before form media after) 0).toNat, true⟩ := by
  obtain ⟨h1, h2⟩ := mp4_strip_rebuild_partial hp hid h hbig
  obtain ⟨o, _, _, hr⟩ := located_rebuilt hm hcut hp.tables.distinct
  refine hr srs _ _ ignoreOffset ?_ ?_ h1 rfl rfl h2
  · rw [List.map_map]
    rfl
  · intro x hx
    obtain ⟨t, ht, rfl⟩ := List.mem_map.1 hx
    exact ⟨t, ht, rfl, rfl, Or.inl rfl, rfl⟩

/-- C64, for an SRS that was made with the movie at hand (`-c`): the places of the tracks are in it.
All tracks have data. -/
theorem mp4_checked_rebuilt_partial {before after : List MovTop} {form : MovForm} {media : Bytes} {tracks : List MovLayout}
    (hp : PlainMp4 before form media after tracks) (hid : ∀ t ∈ tracks, t.id < 2 ^ 16)
    (hdata : ∀ t ∈ tracks, layoutData (mp4Bytes before form media after) t ≠ [])
    {tops : List MovTop} {mtracks : List MovLayout} (hm : Mp4Movie tops mtracks)
    (hcut : ∀ t ∈ tracks, ∃ u ∈ mtracks, u.id = t.id ∧ CutMp4 (layoutData (mp4Bytes before form media after) t) (topBytes tops) u)
    {app name : Str} {big : Bool} {srs : Bytes}
    (h : srsMp4Create app name (mp4Bytes before form media after) big (some (topBytes tops)) = .ok srs) (hbig : srs.length < 2 ^ 63)
    (ignoreOffset : Bool) :
    srsMp4Reconstruct srs (topBytes tops) ignoreOffset = .ok ⟨mp4Bytes before form media after,
      (mp4Bytes before form media after).length, (crc32 (mp4Bytes before form media after) 0).toNat, true⟩ := by
  obtain ⟨o, _, hfind, hr⟩ := located_rebuilt hm hcut hp.tables.distinct
  unfold srsMp4Create at h
  split at h
  · simp at h
  · rw [mp4_profiled hp, ok_bind] at h
    dsimp only at h
    split at h
    · simp at h
    · rw [hfind _ (by rw [List.pairwise_map]; exact hp.tables.distinct) (by
        intro x hx
        obtain ⟨t, ht, rfl⟩ := List.mem_map.1 hx
        exact ⟨t, ht, rfl, rfl⟩), ok_bind] at h
      split at h
      · simp at h
      · rw [pure_eq_ok, ok_bind, List.filter_eq_self.2, List.map_map] at h
        · obtain ⟨h1, h2⟩ := mp4_srs_rebuilds hp (by
            intro p hpm
            obtain ⟨t, ht, rfl⟩ := List.mem_map.1 hpm
            exact ⟨rfl, hid t ht, rfl⟩) (by
            rw [List.pairwise_map]
            exact hp.tables.distinct) h hbig
          refine hr srs _ _ ignoreOffset ?_ ?_ h1 rfl (Nat.mod_eq_of_lt (BitVec.isLt _)) h2
          · rw [List.map_map, List.map_map]
            rfl
          · intro x hx
            rw [List.map_map] at hx
            obtain ⟨t, ht, rfl⟩ := List.mem_map.1 hx
            refine ⟨t, ht, rfl, ?_, Or.inr ?_, ?_⟩ <;> cases big <;> rfl
        · intro x hx
          rw [List.map_map] at hx
          obtain ⟨t, ht, rfl⟩ := List.mem_map.1 hx
          have := hdata t ht
          simp [located, this]

/-- The tracks of a movie are cut out of it. -/
theorem mp4_self_cut {tops : List MovTop} {tracks : List MovLayout} (hm : Mp4Movie tops tracks) :
    ∀ t ∈ tracks, ∃ u ∈ tracks, u.id = t.id ∧ CutMp4 (layoutData (topBytes tops) t) (topBytes tops) u := by
  refine fun t ht => ⟨t, ht, rfl, 0, ?_, List.prefix_rfl, fun _ _ _ => Nat.zero_le _⟩
  cases hc : t.chunks with
  | nil => exact absurd hc (hm.some t ht)
  | cons c l =>
    cases hs : c.2 with
    | nil => exact absurd hs (hm.samples t ht c (by rw [hc]; simp)).1
    | cons s b => exact ⟨[], s, b ++ l.flatMap (·.2), by rw [hc, List.flatMap_cons, hs]; rfl, rfl⟩

/-- A sample is rebuilt from itself. -/
theorem mp4_self_rebuilt {before after : List MovTop} {form : MovForm} {media : Bytes} {tracks : List MovLayout}
    (hp : PlainMp4 before form media after tracks) (hid : ∀ t ∈ tracks, t.id < 2 ^ 16) {app name : Str} {big : Bool} {srs : Bytes}
    (h : srsMp4Create app name (mp4Bytes before form media after) big none = .ok srs) (hbig : srs.length < 2 ^ 63)
    (hm : Mp4Movie (before ++ .box form mdatType media :: after) tracks) (ignoreOffset : Bool) :
    srsMp4Reconstruct srs (mp4Bytes before form media after) ignoreOffset = .ok ⟨mp4Bytes before form media after,
      (mp4Bytes before form media after).length, (crc32 (mp4Bytes before form media after) 0).toNat, true⟩ := by
  exact mp4_cut_rebuilt_partial hp hid h hbig hm (mp4_self_cut hm) ignoreOffset

/-! ### Results that are reported as right -/

theorem movLoop_inv {σ : Type} {mode : MovMode} {how : Bytes → MovHow} {file : Bytes} {f : σ → MovItem → Res σ} (P : σ → Prop)
    (h : ∀ s it s', P s → f s it = .ok s' → P s') : ∀ {fuel pos : Nat} {s r : σ}, P s → movLoop mode how file f fuel pos s = .ok r → P r
  | 0, _, _, _, _, hr => by simp [movLoop] at hr
  | fuel + 1, pos, s, r, hs, hr => by
    rw [movLoop.eq_def] at hr
    simp only [bind_eq_ok] at hr
    obtain ⟨a, _, hr⟩ := hr
    cases a with
    | none =>
      simp only [pure_eq_ok, Except.ok.injEq] at hr
      rw [← hr]; exact hs
    | some a =>
      simp only [bind_eq_ok] at hr
      obtain ⟨⟨d, q⟩, _, s', h1, h2⟩ := hr
      exact movLoop_inv P h (h _ _ _ hs h1) h2

/-- The CRC that is compared is that of the file. -/
theorem mp4_reported_crc {srs : Bytes} {tracks : Tracks} {files : TrackFiles} {out : Bytes} {crc : BitVec 32}
    (h : mp4Rebuild srs tracks files = .ok (out, crc)) : crc = crc32 out 0 := by
  unfold mp4Rebuild at h
  simp only [bind_eq_ok, pure_eq_ok, Except.ok.injEq, Prod.mk.injEq] at h
  obtain ⟨tb, _, st, _, s, hs, rfl, rfl⟩ := h
  refine movLoop_inv (fun s : MovRebuild => s.crc = crc32 s.out 0) ?_ (by simp [crc32]) hs
  intro s it s' hs h
  have hw : ∀ (l : List (Nat × Nat × Nat)) (s : MovRebuild), s.crc = crc32 s.out 0 →
      (l.foldl writeChunks4 s).crc = crc32 (l.foldl writeChunks4 s).out 0 := by
    intro l
    induction l with
    | nil => intro s hs; exact hs
    | cons c l ih =>
      intro s hs
      refine ih _ ?_
      simp only [writeChunks4]
      rw [crc32_append, hs]
  unfold mp4RebuildItem at h
  split at h
  · simp only [Except.ok.injEq] at h
    rw [← h]; exact hs
  · dsimp only at h
    split at h
    · simp only [Except.ok.injEq] at h
      rw [← h]
      exact hw _ _ (by dsimp only; rw [crc32_append, hs])
    · simp only [Except.ok.injEq] at h
      rw [← h]
      dsimp only
      rw [crc32_append, crc32_append, hs]

/-- C64: whatever SRS and movie are given, a result is reported as right exactly when its CRC is the
one the SRS has. -/
theorem mp4_result_sound {srs main : Bytes} {ig : Bool} {r : SrsResult} (h : srsMp4Reconstruct srs main ig = .ok r) :
    r.good = true ↔ (crc32 r.file 0).toNat = r.crc := by
  unfold srsMp4Reconstruct at h
  simp only [bind_eq_ok] at h
  obtain ⟨⟨f, t0⟩, _, t1, _, fs, _, h⟩ := h
  split at h
  · simp at h
  · simp only [bind_eq_ok, pure_eq_ok, Except.ok.injEq] at h
    obtain ⟨⟨out, crc⟩, hr, h⟩ := h
    rw [← h]
    dsimp only
    rw [mp4_reported_crc hr]
    simp

/-! ### Incomplete samples -/

theorem meta_media (parts : List MovPart) :
    metaLength parts + (((leaves parts).filter fun l => l.1 == mdatType).map (·.2.length)).sum = (movBytes parts).length := by
  induction parts with
  | nil => rfl
  | cons p parts ih =>
    rw [show p :: parts = [p] ++ parts from rfl, metaLength_append, movBytes_append, List.length_append, ← ih]
    cases p with
    | enter form type n =>
      simp [metaLength, leaves, movBytes]
      omega
    | leaf form type data =>
      by_cases h : type = mdatType
      · simp [metaLength, leaves, movBytes, MovPart.bytes, h]
        omega
      · simp [metaLength, leaves, movBytes, MovPart.bytes, h]
        omega

/-- C40: a file is accepted as a sample only when the data of its tracks is as long as its media data.
(There is an exception in the program for files with less than 100 bytes of other data.) -/
theorem mp4_incomplete_refused {tops : List MovTop} {tracks : List MovLayout} (hok : MovOk tops)
    (ht : HasTracks (leaves (flatten tops)) tracks) (hin : ∀ t ∈ tracks, ∀ c ∈ t.chunks, c.1 + c.2.sum ≤ (topBytes tops).length)
    (hsize : (topBytes tops).length < 2 ^ 63)
    (h100 : 100 ≤ (topBytes tops).length - (((leaves (flatten tops)).filter fun l => l.1 == mdatType).map (·.2.length)).sum) :
    (∃ r, mp4Profile (topBytes tops) = .ok r) ↔
      (tracks.map fun t => (layoutData (topBytes tops) t).length).sum =
        (((leaves (flatten tops)).filter fun l => l.1 == mdatType).map (·.2.length)).sum := by
  obtain ⟨c, o, m, L, cur, p, h1, h2, h3⟩ := movProfile_ok (crc := true) hok.ok hok.ends
    (flatten_fits fun f ty i hi => (hok.inner f ty i hi).1) hsize ht hin
  obtain ⟨_, h4⟩ := h3 rfl
  have hmm := meta_media (flatten tops)
  rw [show movBytes (flatten tops) = topBytes tops from rfl] at hmm h1 h2
  have hs := areTracks_sum h2
  generalize (((leaves (flatten tops)).filter fun l => l.1 == mdatType).map (·.2.length)).sum = M at *
  generalize (tracks.map fun t => (layoutData (topBytes tops) t).length).sum = D at *
  have e : mp4Profile (topBytes tops) = if (topBytes tops).length ≠ o + D then .error .incompleteSample else
      .ok (c, L.map fun x => (x.1, { number := x.1, dataLength := x.2.dataLength, sig := x.2.sig })) := by
    unfold mp4Profile
    rw [h1, ok_bind]
    dsimp only
    rw [hs, if_neg (show ¬ (o + D < (topBytes tops).length ∧ o + D < 100) by omega)]
    rfl
  rw [e]
  constructor
  · rintro ⟨r, h⟩
    split at h
    · simp at h
    · omega
  · intro h
    rw [if_neg (by omega)]
    exact ⟨_, rfl⟩

end Rescene.Props
