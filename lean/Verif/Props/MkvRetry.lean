import Verif.Lemmas.MkvRetry
import Verif.Props.MkvCutExample
/-
C77: when the first attempt to rebuild an MKV sample fails and signatures are short, other places
of the movie are tried, and nothing wrong is reported as right.
-/
namespace Rescene.Props
open Rescene Rescene.Spec

/-- C77: what is written to a file of an earlier attempt replaces what is there, from its position on. -/
theorem live_write {f : LiveFile} (h : f.pos ≤ f.data.length) (d : Bytes) : (f.write d).pos = f.pos + d.length ∧
    ∀ i : Nat, (f.write d).data[i]? = if i < f.pos then f.data[i]? else if i < f.pos + d.length then d[i - f.pos]? else f.data[i]? := by
  refine ⟨rfl, fun i => ?_⟩
  unfold LiveFile.write
  dsimp only
  by_cases h1 : i < f.pos
  · rw [if_pos h1, List.append_assoc, List.getElem?_append_left (by simp; omega), List.getElem?_take, if_pos h1]
  · rw [if_neg h1]
    by_cases h2 : i < f.pos + d.length
    · rw [if_pos h2, List.getElem?_append_left (by simp; omega), List.getElem?_append_right (by simp; omega)]
      congr 1
      simp
      omega
    · rw [if_neg h2, List.getElem?_append_right (by simp; omega), List.getElem?_drop]
      congr 1
      simp
      omega

example : (⟨[1, 2, 3, 4], 1⟩ : LiveFile).write [7, 8] = ⟨[1, 7, 8, 4], 3⟩ := by decide

/-- C77: when there is enough signature data for each track, there is one attempt. -/
theorem restore_once {srs : Bytes} (h : ∀ f ts, mkvLoadSrs srs = .ok (f, ts) → ∀ x ∈ ts, enoughSignature x.2 = true) (main : Bytes) (ig : Bool) :
    srsMkvRestore srs main ig = srsMkvReconstruct srs main ig := by
  unfold srsMkvRestore srsMkvReconstruct
  cases hl : mkvLoadSrs srs with
  | error e => rfl
  | ok y =>
    obtain ⟨f, ts⟩ := y
    have hen := h f ts hl
    have hcut : cutTracks ts = [] := by
      unfold cutTracks
      rw [List.map_eq_nil_iff, List.filter_eq_nil_iff]
      intro x hx
      simp [hen x hx]
    have hany : ts.any (fun t => !enoughSignature t.2) = false := by
      rw [List.any_eq_false]
      intro x hx
      simp [hen x hx]
    simp only [ok_bind, hcut, hany, ne_eq, not_true_eq_false, Bool.false_eq_true, or_false]
    have tail : ∀ tr : MkvTracks,
        (do
          let (files, atts) ← mkvExtractOn tr (fun _ => none) main
          if tr.any (fun t => t.2.sig ≠ [] && (match files t.1 with
              | none => true
              | some b => decide ((b.pos : Int) < t.2.len))) then throw Err.other
          else
            match f with
            | none => throw .attrError
            | some f => do
              let (out, crc, files) ← mkvRebuildOn srs f.flags tr files atts
              if crc.toNat == f.crc then return (⟨out, f.size, f.crc, true⟩ : SrsResult)
              else if ([] : CutData).any (fun c => c.2.any (· ≠ 0)) then mkvRetry srs main f [] ⟨tr, files⟩
              else return ⟨out, f.size, f.crc, false⟩ : Res SrsResult) =
        (do
          let (files, atts) ← mkvExtract tr main
          if tr.any (fun t => t.2.sig ≠ [] && (match files t.1 with
              | none => true
              | some b => decide ((b.length : Int) < t.2.len))) then throw Err.other
          else
            match f with
            | none => throw .attrError
            | some f => do
              let (out, crc) ← mkvRebuild srs f.flags tr files atts
              return ⟨out, f.size, f.crc, crc.toNat == f.crc⟩ : Res SrsResult) := by
      intro tr
      rw [extractOn_none]
      cases mkvExtract tr main with
      | error e => rfl
      | ok z =>
        obtain ⟨files, atts⟩ := z
        simp only [Except.map, ok_bind]
        have hc : (tr.any fun t => (decide (t.2.sig ≠ []) && match liveOf files t.1 with
            | none => true
            | some b => decide ((b.pos : Int) < t.2.len))) = (tr.any fun t => (decide (t.2.sig ≠ []) && match files t.1 with
            | none => true
            | some b => decide ((b.length : Int) < t.2.len))) := by
          congr 1
          funext t
          unfold liveOf
          cases files t.1 <;> rfl
        rw [hc]
        split
        · rfl
        · cases f with
          | none => rfl
          | some f =>
            dsimp only
            have h1 := rebuildOn_live srs f.flags tr files atts
            cases h2 : mkvRebuildOn srs f.flags tr (liveOf files) atts with
            | error e =>
              rw [h2] at h1
              rw [← h1]
              rfl
            | ok w =>
              obtain ⟨out, crc, fs⟩ := w
              rw [h2] at h1
              simp only [Except.map] at h1
              rw [← h1, ok_bind, ok_bind]
              dsimp only
              cases hb : (crc.toNat == f.crc) <;> rfl
    by_cases hc : ig = true ∨ ts.any (fun t => t.2.offset == 0) = true
    · rw [if_pos hc, if_pos hc, mkvSeek_none]
      cases mkvFind ts main with
      | error e => rfl
      | ok tr =>
        simp only [Except.map, ok_bind]
        split
        · rfl
        · exact tail tr
    · rw [if_neg hc, if_neg hc]
      exact tail ts

theorem attempt_honest {srs main : Bytes} {f : FileData} {s s' : RetryState} {r : SrsResult} {g : Bool}
    (h : mkvAttempt srs main f s = .ok (s', r, g)) : r.size = f.size ∧ r.crc = f.crc ∧ r.good = g ∧ (g = true ↔ (crc32 r.file 0).toNat = f.crc) := by
  unfold mkvAttempt at h
  simp only [bind_eq_ok, pure_eq_ok, Except.ok.injEq, Prod.mk.injEq] at h
  obtain ⟨⟨files, atts⟩, _, ⟨out, crc, files'⟩, h2, _, rfl, rfl⟩ := h
  have := mkv_reported_crc (rebuildOn_rebuild h2)
  subst this
  simp

theorem guesses_shape {tracks : MkvTracks} {cut g : CutData} (h : educatedGuesses tracks cut = .ok g) :
    g.map (·.1) = cut.map (·.1) ∧ ∀ x ∈ g, x.2 ≠ [] := by
  unfold educatedGuesses at h
  simp only [bind_eq_ok] at h
  obtain ⟨⟨lo, hi⟩, _, h⟩ := h
  dsimp only at h
  rename_i hmm
  clear hmm
  induction cut generalizing g with
  | nil =>
    rw [List.mapM_nil, pure_eq_ok, Except.ok.injEq] at h
    subst h
    simp
  | cons x cut ih =>
    obtain ⟨n, found⟩ := x
    rw [List.mapM_cons] at h
    simp only [bind_eq_ok, pure_eq_ok, Except.ok.injEq] at h
    obtain ⟨y, h1, g', h2, rfl⟩ := h
    obtain ⟨ih1, ih2⟩ := ih h2
    split at h1
    · simp at h1
    · simp only [Except.ok.injEq] at h1
      subst h1
      refine ⟨by rw [List.map_cons, List.map_cons, ih1], ?_⟩
      intro x hx
      rcases List.mem_cons.1 hx with rfl | hx
      · exact suggested_ne _ _ _ _
      · exact ih2 x hx

/-- C77: after a wrong CRC there is one attempt for each choice of suggested offsets, one after the other,
until the CRC is right; the result is that of the last attempt. -/
theorem retry_tries_choices {cut g : CutData} {s : RetryState} (hd : cut.Pairwise fun a b => a.1 ≠ b.1)
    (hg : educatedGuesses s.tracks cut = .ok g) (srs main : Bytes) (f : FileData) :
    mkvRetry srs main f cut s = (tryChoices (setAll setOffset) (mkvAttempt srs main f) (choices g) s none).bind fun x =>
      match x.2.1 with
      | some r => .ok r
      | none => .error .attrError := by
  obtain ⟨h1, h2⟩ := guesses_shape hg
  have hgd : g.Pairwise fun a b => a.1 ≠ b.1 := by
    have : (g.map (·.1)).Pairwise (· ≠ ·) := by
      rw [h1]
      exact List.pairwise_map.2 hd
    exact List.pairwise_map.1 this
  unfold mkvRetry
  rw [hg, ok_bind, checkTracks_eq (mkv_settable srs main f) hgd h2]
  cases tryChoices (setAll setOffset) (mkvAttempt srs main f) (choices g) s none with
  | error e => rfl
  | ok x =>
    obtain ⟨s', l, b⟩ := x
    cases l <;> rfl

/-- C77: what is reported as right has the CRC that the SRS has, and what has another CRC is not reported
as right, after any number of attempts. -/
theorem restore_honest {srs main : Bytes} {ig : Bool} {r : SrsResult} (h : srsMkvRestore srs main ig = .ok r) :
    (∃ f ts, mkvLoadSrs srs = .ok (some f, ts) ∧ r.size = f.size ∧ r.crc = f.crc) ∧ (r.good = true ↔ (crc32 r.file 0).toNat = r.crc) := by
  unfold srsMkvRestore at h
  simp only [bind_eq_ok] at h
  obtain ⟨⟨f, ts⟩, hl, ⟨tr, cut⟩, _, ⟨files, atts⟩, _, h⟩ := h
  dsimp only at h
  split at h
  · simp at h
  · cases f with
    | none => simp at h
    | some f =>
      simp only [bind_eq_ok] at h
      obtain ⟨⟨out, crc, files'⟩, h2, h⟩ := h
      dsimp only at h
      have hcrc := mkv_reported_crc (rebuildOn_rebuild h2)
      subst hcrc
      split at h
      · rename_i hb
        simp only [pure_eq_ok, Except.ok.injEq] at h
        subst h
        exact ⟨⟨f, ts, hl, rfl, rfl⟩, by simpa using hb⟩
      · rename_i hb
        split at h
        · unfold mkvRetry at h
          simp only [bind_eq_ok] at h
          obtain ⟨g, hg, ⟨s', l, b⟩, hc, h⟩ := h
          dsimp only at h
          cases l with
          | none => simp at h
          | some r' =>
            simp only [pure_eq_ok, Except.ok.injEq] at h
            subst h
            have key : ∀ (g : CutData) (s s' : RetryState) (last : Option SrsResult) (b : Bool) (r : SrsResult),
                (∀ r, last = some r → r.size = f.size ∧ r.crc = f.crc ∧ (r.good = true ↔ (crc32 r.file 0).toNat = f.crc)) →
                checkTracks setOffset (mkvAttempt srs main f) g s last = .ok (s', some r, b) →
                r.size = f.size ∧ r.crc = f.crc ∧ (r.good = true ↔ (crc32 r.file 0).toNat = f.crc) := by
              intro g
              induction g with
              | nil =>
                intro s s' last b r _ h
                rw [checkTracks] at h
                simp only [bind_eq_ok, pure_eq_ok, Except.ok.injEq, Prod.mk.injEq, Option.some.injEq] at h
                obtain ⟨⟨s1, r1, g1⟩, h1, _, rfl, _⟩ := h
                obtain ⟨a1, a2, a3, a4⟩ := attempt_honest h1
                exact ⟨a1, a2, by rw [a3]; exact a4⟩
              | cons x g ih =>
                obtain ⟨n, os⟩ := x
                intro s s' last b r hlast h
                rw [checkTracks] at h
                induction os generalizing s last with
                | nil =>
                  simp only [checkOffsets, Except.ok.injEq, Prod.mk.injEq] at h
                  exact hlast r h.2.1
                | cons o os ih2 =>
                  rw [checkOffsets] at h
                  simp only [bind_eq_ok] at h
                  obtain ⟨s1, _, ⟨s2, l2, b2⟩, h2, h⟩ := h
                  dsimp only at h
                  split at h
                  · simp only [pure_eq_ok, Except.ok.injEq, Prod.mk.injEq] at h
                    obtain ⟨_, rfl, _⟩ := h
                    exact ih _ _ _ _ _ hlast h2
                  · refine ih2 s2 l2 ?_ h
                    intro r' hr'
                    subst hr'
                    exact ih _ _ _ _ _ hlast h2
            obtain ⟨a1, a2, a3⟩ := key g _ _ none b r' (by simp) hc
            exact ⟨⟨f, ts, hl, a1, a2⟩, by rw [a2]; exact a3⟩
        · simp only [pure_eq_ok, Except.ok.injEq] at h
          subst h
          exact ⟨⟨f, ts, hl, rfl, rfl⟩, by simpa using hb⟩

/-- C77: when no attempt is right, there was one with each choice of suggested offsets. -/
theorem retry_exhaustive {cut g : CutData} {s : RetryState} {srs main : Bytes} {f : FileData} {r : SrsResult}
    (hd : cut.Pairwise fun a b => a.1 ≠ b.1) (hg : educatedGuesses s.tracks cut = .ok g)
    (h : mkvRetry srs main f cut s = .ok r) (hr : r.good = false) :
    ∀ c ∈ choices g, ∃ s1 s2 r', (∀ x ∈ c, (movGet s1.tracks x.1).map (·.offset) = some x.2) ∧
      mkvAttempt srs main f s1 = .ok (s2, r', false) := by
  obtain ⟨h1, h2⟩ := guesses_shape hg
  rw [retry_tries_choices hd hg] at h
  cases ht : tryChoices (setAll setOffset) (mkvAttempt srs main f) (choices g) s none with
  | error e => rw [ht] at h; simp [Except.bind] at h
  | ok x =>
    obtain ⟨s', l, b⟩ := x
    rw [ht] at h
    obtain ⟨c0, _, s0, s1, r0, _, h4, rfl⟩ := tryChoices_last (choices_ne h2) ht
    simp only [Except.bind, Except.ok.injEq] at h
    subst h
    have hb := (attempt_honest h4).2.2.1
    rw [hr] at hb
    subst hb
    intro c hc
    obtain ⟨s0, s1, s2, r', h5, h6⟩ := tryChoices_all ht c hc
    have hcd : c.Pairwise fun a b => a.1 ≠ b.1 := by
      have : (c.map (·.1)).Pairwise (· ≠ ·) := by
        rw [choices_names hc, h1]
        exact List.pairwise_map.2 hd
      exact List.pairwise_map.1 this
    exact ⟨s1, s2, r', setAll_now (mkv_settable srs main f) hcd h5, h6⟩

/-- The offset of a track for which nothing else was found. -/
def SettledAt (tracks : MkvTracks) (cut : CutData) (o : Int) : Prop :=
  ∃ x ∈ tracks, x.2.offset = o ∧ (movGet cut x.1 = none ∨ movGet cut x.1 = some [])

/-- C77: the suggestions for a track: `lo` is the first and `hi` the last offset of the tracks that are
settled; the found offsets in between are suggested, with the last one in front of them and the first
one behind.  Nothing else is, unless there would be none. -/
theorem guesses_near {tracks : MkvTracks} {cut g : CutData} (hp : ∀ x ∈ cut, ∀ o ∈ x.2, 0 ≤ o) (h : educatedGuesses tracks cut = .ok g) :
    ∃ lo hi, SettledAt tracks cut lo ∧ SettledAt tracks cut hi ∧ (∀ o, SettledAt tracks cut o → lo ≤ o ∧ o ≤ hi) ∧
      ∀ n found, (n, found) ∈ cut → ∃ os t, (n, os) ∈ g ∧ movGet tracks n = some t ∧
        (∀ o ∈ found, lo < o → o < hi → o ∈ os) ∧
        (∀ o ∈ found, o < lo → ∃ o' ∈ os, o ≤ o' ∧ o' < lo) ∧
        (∀ o ∈ found, hi < o → ∃ o' ∈ os, hi < o' ∧ o' ≤ o) ∧
        (os = [t.offset] ∨ ∀ o ∈ os, o ∈ found ∧ (o < lo ∨ (lo < o ∧ o < hi) ∨ hi < o)) := by
  unfold educatedGuesses at h
  simp only [bind_eq_ok] at h
  obtain ⟨⟨lo, hi⟩, hm, h⟩ := h
  dsimp only at h
  have hset : ∀ o, o ∈ goodOffsets tracks cut ↔ SettledAt tracks cut o := by
    intro o
    unfold goodOffsets SettledAt
    rw [List.mem_map]
    constructor
    · rintro ⟨x, hx, rfl⟩
      rw [List.mem_filter] at hx
      refine ⟨x, hx.1, rfl, ?_⟩
      have := hx.2
      cases hc : movGet cut x.1 with
      | none => exact Or.inl rfl
      | some l =>
        rw [hc] at this
        right
        simpa using this
    · rintro ⟨x, hx, rfl, hc⟩
      refine ⟨x, List.mem_filter.2 ⟨hx, ?_⟩, rfl⟩
      rcases hc with hc | hc <;> simp [hc]
  have hlohi : lo ∈ goodOffsets tracks cut ∧ hi ∈ goodOffsets tracks cut ∧ ∀ o ∈ goodOffsets tracks cut, lo ≤ o ∧ o ≤ hi := by
    cases hgo : goodOffsets tracks cut with
    | nil => rw [hgo] at hm; simp [minMax] at hm
    | cons a l =>
      rw [hgo] at hm
      simp only [minMax, Except.ok.injEq, Prod.mk.injEq] at hm
      obtain ⟨rfl, rfl⟩ := hm
      refine ⟨?_, ?_, ?_⟩
      · rcases foldl_min_mem l a with e | e
        · rw [e]; simp
        · simp [e]
      · rcases foldl_max_mem l a with e | e
        · rw [e]; simp
        · simp [e]
      · intro o ho
        have h1 := minOf_le l a
        have h2 := le_foldl_max l a
        rcases List.mem_cons.1 ho with rfl | ho
        · exact ⟨h1.1, h2.1⟩
        · exact ⟨h1.2 o ho, h2.2 o ho⟩
  have hle : lo ≤ hi := (hlohi.2.2 lo hlohi.1).2
  refine ⟨lo, hi, (hset _).1 hlohi.1, (hset _).1 hlohi.2.1, fun o ho => hlohi.2.2 o ((hset o).2 ho), ?_⟩
  intro n found hn
  have hg : ∃ t, movGet tracks n = some t ∧ (n, suggested lo hi t.offset found) ∈ g := by
    clear hm hset hlohi hp
    induction cut generalizing g with
    | nil => simp at hn
    | cons x cut ih =>
      obtain ⟨m, fo⟩ := x
      rw [List.mapM_cons] at h
      simp only [bind_eq_ok, pure_eq_ok, Except.ok.injEq] at h
      obtain ⟨y, h1, g', h2, rfl⟩ := h
      rcases List.mem_cons.1 hn with hn | hn
      · simp only [Prod.mk.injEq] at hn
        obtain ⟨rfl, rfl⟩ := hn
        split at h1
        · simp at h1
        · rename_i t ht
          simp only [Except.ok.injEq] at h1
          subst h1
          exact ⟨t, ht, by simp⟩
      · obtain ⟨t, h3, h4⟩ := ih h2 hn
        exact ⟨t, h3, by simp [h4]⟩
  obtain ⟨t, ht, hg⟩ := hg
  refine ⟨_, t, hg, ht, ?_⟩
  have hsp := sortOffsets_spec hle found [] (-1, -1, []) (by simpa using hp _ hn)
    ⟨Or.inl ⟨rfl, by simp⟩, Or.inl ⟨rfl, by simp⟩, by simp⟩
  rw [List.nil_append] at hsp
  unfold suggested
  dsimp only
  generalize sortOffsets lo hi found (-1, -1, []) = r at hsp
  obtain ⟨x, y, z⟩ := r
  obtain ⟨p1, p2, p3⟩ := hsp
  dsimp only at p1 p2 p3 ⊢
  have hpos := hp _ hn
  dsimp only at hpos
  generalize hL : ((if x ≠ -1 then [x] else []) ++ (if y ≠ -1 then [y] else []) ++ z.reverse) = L
  have mem : ∀ o, o ∈ L ↔ (x ≠ -1 ∧ o = x) ∨ (y ≠ -1 ∧ o = y) ∨ o ∈ z := by
    intro o
    rw [← hL, List.mem_append, List.mem_append, List.mem_reverse]
    by_cases c1 : x ≠ -1 <;> by_cases c2 : y ≠ -1 <;> simp [c1, c2, or_assoc]
  have inL : ∀ o, o ∈ L → o ∈ (if L = [] then [t.offset] else L) := by
    intro o ho
    rw [if_neg (by intro e; rw [e] at ho; simp at ho)]
    exact ho
  refine ⟨?_, ?_, ?_, ?_⟩
  · intro o ho h1 h2
    exact inL o ((mem o).2 (Or.inr (Or.inr ((p3 o).2 ⟨ho, h1, h2⟩))))
  · intro o ho h1
    rcases p1 with ⟨_, p1⟩ | ⟨a1, a2, a3⟩
    · exact absurd h1 (p1 o ho)
    · have := hpos x a1
      exact ⟨x, inL x ((mem x).2 (Or.inl ⟨by omega, rfl⟩)), a3 o ho h1, a2⟩
  · intro o ho h1
    rcases p2 with ⟨_, p2⟩ | ⟨a1, a2, a3⟩
    · exact absurd h1 (p2 o ho)
    · have := hpos y a1
      exact ⟨y, inL y ((mem y).2 (Or.inr (Or.inl ⟨by omega, rfl⟩))), a2, a3 o ho h1⟩
  · by_cases hn : L = []
    · left; rw [if_pos hn]
    · right
      rw [if_neg hn]
      intro o ho
      rcases (mem o).1 ho with ⟨h1, rfl⟩ | ⟨h1, rfl⟩ | h1
      · rcases p1 with ⟨e, _⟩ | ⟨a1, a2, _⟩
        · exact absurd e h1
        · exact ⟨a1, Or.inl a2⟩
      · rcases p2 with ⟨e, _⟩ | ⟨a1, a2, _⟩
        · exact absurd e h1
        · exact ⟨a1, Or.inr (Or.inr a2)⟩
      · obtain ⟨a1, a2⟩ := (p3 o).1 h1
        exact ⟨a1, Or.inr (Or.inl a2)⟩

/-- C77: the further offsets that are found in a movie are those of frames of the track that look like the
signature. -/
theorem further_offsets {mlead minfo mmedia : List MkvTop} {mseg : Bytes} (hm : PlainMovie mlead mseg minfo mmedia) {ts : MkvTracks}
    (hstrip : ∀ b, .block b ∈ mkvFine (mlead ++ .part (.enter segmentId mseg) :: (minfo ++ mmedia)) → ∀ t, movGet ts b.track = some t →
      ∀ f ∈ b.frames, strippedHeader (mkvFine (mlead ++ .part (.enter segmentId mseg) :: (minfo ++ mmedia))) b.track = t.settings ∨ t.settings = [] ∨
        (strippedHeader (mkvFine (mlead ++ .part (.enter segmentId mseg) :: (minfo ++ mmedia))) b.track = [] ∧ t.settings <+: f)) :
    ∃ tr cut, mkvSeek ts (cutTracks ts) (mkvFile (mlead ++ .part (.enter segmentId mseg) :: (minfo ++ mmedia))) = .ok (tr, cut) ∧
      ∀ n t l, movGet ts n = some t → movGet cut n = some l → ∀ o ∈ l, ∃ f,
        FrameAt (mkvFine (mlead ++ .part (.enter segmentId mseg) :: (minfo ++ mmedia))) n o f ∧
        LooksLike t.sig (strippedHeader (mkvFine (mlead ++ .part (.enter segmentId mseg) :: (minfo ++ mmedia))) n) t.settings f := by
  refine mkvSeek_like (plainMovie_tops hm) hstrip ?_
  intro n l hl
  have := movGet_eq_some hl
  unfold cutTracks at this
  obtain ⟨x, _, e⟩ := List.mem_map.1 this
  simp only [Prod.mk.injEq] at e
  exact e.2.symm

/-- What the first attempt rebuilds right is what the command rebuilds. -/
theorem mkv_first_enough {M : List MkvTop} {mh : Nat → Bytes} (hmt : MovieTops M mh) {srs S : Bytes} {ig : Bool} {f : Option FileData} {ts : MkvTracks}
    (hl : mkvLoadSrs srs = .ok (f, ts))
    (h1 : srsMkvReconstruct srs (mkvFile M) ig = .ok ⟨S, S.length, (crc32 S 0).toNat, true⟩) :
    srsMkvRestore srs (mkvFile M) ig = .ok ⟨S, S.length, (crc32 S 0).toNat, true⟩ := by
  unfold srsMkvReconstruct at h1
  unfold srsMkvRestore
  rw [hl, ok_bind] at h1 ⊢
  dsimp only at h1 ⊢
  have hcond : cutTracks ts ≠ [] ↔ ts.any (fun t => !enoughSignature t.2) = true := by
    unfold cutTracks
    rw [ne_eq, List.map_eq_nil_iff, List.filter_eq_nil_iff, List.any_eq_true]
    constructor
    · intro hh
      exact Classical.byContradiction fun hno => hh fun x hx hy => hno ⟨x, hx, hy⟩
    · rintro ⟨x, hx, hy⟩ hh
      exact hh x hx hy
  have tail : ∀ (tr : MkvTracks) (cut : CutData),
      (do
        let (files, atts) ← mkvExtract tr (mkvFile M)
        if tr.any (fun t => t.2.sig ≠ [] && (match files t.1 with
            | none => true
            | some b => decide ((b.length : Int) < t.2.len))) then throw Err.other
        else
          match f with
          | none => throw .attrError
          | some f => do
            let (out, crc) ← mkvRebuild srs f.flags tr files atts
            return ⟨out, f.size, f.crc, crc.toNat == f.crc⟩ : Res SrsResult) = .ok ⟨S, S.length, (crc32 S 0).toNat, true⟩ →
      (do
        let (files, atts) ← mkvExtractOn tr (fun _ => none) (mkvFile M)
        if tr.any (fun t => t.2.sig ≠ [] && (match files t.1 with
            | none => true
            | some b => decide ((b.pos : Int) < t.2.len))) then throw Err.other
        else
          match f with
          | none => throw .attrError
          | some f => do
            let (out, crc, files) ← mkvRebuildOn srs f.flags tr files atts
            if crc.toNat == f.crc then return (⟨out, f.size, f.crc, true⟩ : SrsResult)
            else if cut.any (fun c => c.2.any (· ≠ 0)) then mkvRetry srs (mkvFile M) f cut ⟨tr, files⟩
            else return ⟨out, f.size, f.crc, false⟩ : Res SrsResult) = .ok ⟨S, S.length, (crc32 S 0).toNat, true⟩ := by
    intro tr cut h
    rw [extractOn_none]
    cases hx : mkvExtract tr (mkvFile M) with
    | error e => rw [hx] at h; simp at h
    | ok z =>
      obtain ⟨files, atts⟩ := z
      rw [hx] at h
      simp only [Except.map, ok_bind] at h ⊢
      have hc : (tr.any fun t => (decide (t.2.sig ≠ []) && match liveOf files t.1 with
          | none => true
          | some b => decide ((b.pos : Int) < t.2.len))) = (tr.any fun t => (decide (t.2.sig ≠ []) && match files t.1 with
          | none => true
          | some b => decide ((b.length : Int) < t.2.len))) := by
        congr 1
        funext t
        unfold liveOf
        cases files t.1 <;> rfl
      rw [hc]
      split at h
      · simp at h
      · rename_i hc'
        rw [if_neg hc']
        cases f with
        | none => simp at h
        | some f =>
          dsimp only at h ⊢
          have h1 := rebuildOn_live srs f.flags tr files atts
          cases h2 : mkvRebuildOn srs f.flags tr (liveOf files) atts with
          | error e =>
            rw [h2] at h1
            rw [← h1] at h
            simp [Except.map] at h
          | ok w =>
            obtain ⟨out, crc, fs⟩ := w
            rw [h2] at h1
            simp only [Except.map] at h1
            rw [← h1, ok_bind] at h
            simp only [pure_eq_ok, Except.ok.injEq, SrsResult.mk.injEq] at h
            rw [ok_bind]
            dsimp only
            rw [if_pos h.2.2.2]
            simp only [pure_eq_ok, Except.ok.injEq, SrsResult.mk.injEq]
            exact ⟨h.1, h.2.1, h.2.2.1, trivial⟩
  simp only [hcond]
  split at h1
  · rename_i hc
    rw [if_pos hc]
    have hs := mkvSeek_find hmt ts (cutTracks ts)
    cases hx : mkvSeek ts (cutTracks ts) (mkvFile M) with
    | error e =>
      rw [hx] at hs
      rw [← hs] at h1
      simp [Except.map] at h1
    | ok y =>
      obtain ⟨tr, cut⟩ := y
      rw [hx] at hs
      rw [← hs] at h1
      simp only [Except.map, ok_bind] at h1 ⊢
      split at h1
      · simp at h1
      · rename_i hu
        rw [if_neg hu]
        simp only [pure_eq_ok, ok_bind] at h1 ⊢
        exact tail tr cut h1
  · rename_i hc
    rw [if_neg hc]
    simp only [ok_bind] at h1 ⊢
    exact tail ts [] h1

/-- C77, C66: a sample that is rebuilt from its movie by the first attempt is rebuilt by the command. -/
theorem mkv_cut_restored_partial {lead info media mlead minfo mmedia : List MkvTop} {seg mseg : Bytes}
    (hp : PlainMkv lead seg info media) (hm : PlainMovie mlead mseg minfo mmedia)
    (hn : ∀ n, HasTrack (mkvFine (lead ++ .part (.enter segmentId seg) :: (info ++ media))) n → n < 2 ^ 16)
    {app name : Str} {big ig : Bool} {srs : Bytes} {f : Option FileData} {ts : MkvTracks}
    (h : srsMkvCreate app name (mkvFile (lead ++ .part (.enter segmentId seg) :: (info ++ media))) big none = .ok srs)
    (hl : mkvLoadSrs srs = .ok (f, ts))
    (hcut : ∀ n t, movGet ts n = some t → (∃ b, .block b ∈ mkvFine media ∧ b.track = n) →
      MkvCut (mkvFine (mlead ++ .part (.enter segmentId mseg) :: (minfo ++ mmedia)))
        (mkvFine (lead ++ .part (.enter segmentId seg) :: (info ++ media))) n t.sig)
    (hatt : ∀ x ∈ attachments none (mkvFine (lead ++ .part (.enter segmentId seg) :: (info ++ media))),
      x ∈ attachments none (mkvFine (mlead ++ .part (.enter segmentId mseg) :: (minfo ++ mmedia)))) :
    srsMkvRestore srs (mkvFile (mlead ++ .part (.enter segmentId mseg) :: (minfo ++ mmedia))) ig =
      .ok ⟨mkvFile (lead ++ .part (.enter segmentId seg) :: (info ++ media)),
        (mkvFile (lead ++ .part (.enter segmentId seg) :: (info ++ media))).length,
        (crc32 (mkvFile (lead ++ .part (.enter segmentId seg) :: (info ++ media))) 0).toNat, true⟩ := by
  exact mkv_first_enough (plainMovie_tops hm) hl (mkv_cut_rebuilt_partial (ig := ig) hp hm hn h hl hcut hatt)

/-- The same for an SRS that was made with the movie at hand. -/
theorem mkv_checked_restored_partial {lead info media mlead minfo mmedia : List MkvTop} {seg mseg : Bytes}
    (hp : PlainMkv lead seg info media) (hm : PlainMovie mlead mseg minfo mmedia)
    (hn : ∀ n, HasTrack (mkvFine (lead ++ .part (.enter segmentId seg) :: (info ++ media))) n → n < 2 ^ 16)
    {app name : Str} {big ig : Bool} {srs : Bytes} {f : Option FileData} {ts : MkvTracks}
    (h : srsMkvCreate app name (mkvFile (lead ++ .part (.enter segmentId seg) :: (info ++ media))) big
      (some (mkvFile (mlead ++ .part (.enter segmentId mseg) :: (minfo ++ mmedia)))) = .ok srs)
    (hl : mkvLoadSrs srs = .ok (f, ts))
    (hdata : ∀ b, .block b ∈ mkvFine media → mkvTrackData (mkvFine (lead ++ .part (.enter segmentId seg) :: (info ++ media))) b.track ≠ [])
    (hcut : ∀ n t, movGet ts n = some t → t.sig ≠ [] →
      MkvCut (mkvFine (mlead ++ .part (.enter segmentId mseg) :: (minfo ++ mmedia)))
        (mkvFine (lead ++ .part (.enter segmentId seg) :: (info ++ media))) n t.sig)
    (hatt : ∀ x ∈ attachments none (mkvFine (lead ++ .part (.enter segmentId seg) :: (info ++ media))),
      x ∈ attachments none (mkvFine (mlead ++ .part (.enter segmentId mseg) :: (minfo ++ mmedia)))) :
    srsMkvRestore srs (mkvFile (mlead ++ .part (.enter segmentId mseg) :: (minfo ++ mmedia))) ig =
      .ok ⟨mkvFile (lead ++ .part (.enter segmentId seg) :: (info ++ media)),
        (mkvFile (lead ++ .part (.enter segmentId seg) :: (info ++ media))).length,
        (crc32 (mkvFile (lead ++ .part (.enter segmentId seg) :: (info ++ media))) 0).toNat, true⟩ := by
  exact mkv_first_enough (plainMovie_tops hm) hl (mkv_checked_rebuilt_partial (ig := ig) hp hm hn h hl hdata hcut hatt)

/-! ### Attempts that succeed, and samples that are not found -/

/-- C77, violated: when there are further offsets for each of the tracks, there is no second attempt but a
`ValueError`. -/
theorem retry_all_short {cut : CutData} {s : RetryState} (h : ∀ x ∈ s.tracks, ∃ o l, movGet cut x.1 = some (o :: l)) (srs main : Bytes) (f : FileData) :
    mkvRetry srs main f cut s = .error .valueError := by
  have : goodOffsets s.tracks cut = [] := by
    unfold goodOffsets
    rw [List.map_eq_nil_iff, List.filter_eq_nil_iff]
    intro x hx
    obtain ⟨o, l, e⟩ := h x hx
    simp [e]
  unfold mkvRetry educatedGuesses
  rw [this]
  rfl

/-- C77, in full: when a sample is rebuilt with one of the offsets that were found for each track, the
attempts after a wrong CRC find it. -/
def RetryFinds : Prop := ∀ (srs main : Bytes) (f : FileData) (cut : CutData) (s : RetryState) (c : List (Nat × Int)),
  c.map (·.1) = cut.map (·.1) →
  (∀ x ∈ c, (movGet s.tracks x.1).map (·.offset) = some x.2 ∨ ∃ l, movGet cut x.1 = some l ∧ x.2 ∈ l) →
  (∃ s1 s2 r, setAll setOffset c s = .ok s1 ∧ mkvAttempt srs main f ⟨s1.tracks, fun _ => none⟩ = .ok (s2, r, true)) →
  ∃ r, mkvRetry srs main f cut s = .ok r ∧ r.good = true

namespace MkvExample

/-- Two tracks. -/
def two : List MkvTop := [masterOf tracksId (trackOf 1 none ++ trackOf 2 none)]
def twoOf (fs : List (Nat × Bytes)) : MkvTop := clusterOf (fs.map fun f => blockOf [0xA3] f.1 0 [] [f.2])
def twoFile (fs : List (Nat × Bytes)) : Bytes := mk two [twoOf fs]

/-- The movie is searched for samples with one byte of signature for the tracks of `short`: the SRS, the
tracks found, with the files extracted, and the further offsets. -/
def shortly (short : List Nat) (sample movie : Bytes) : Res (Bytes × FileData × CutData × RetryState) := do
  let srs ← srsMkvCreate [97] [98] sample false none
  let (f, ts) ← mkvLoadSrs srs
  let ts := ts.map fun (n, t) => (n, if n ∈ short then { t with sig := t.sig.take 1 } else t)
  let (ts, cut) ← mkvSeek ts (short.map fun n => (n, [])) movie
  let (files, atts) ← mkvExtractOn ts (fun _ => none) movie
  match f with
  | none => .error .attrError
  | some f =>
    let (_, _, files) ← mkvRebuildOn srs f.flags ts files atts
    return (srs, f, cut, ⟨ts, files⟩)

def afterwards (short : List Nat) (sample movie : Bytes) : Res (List Int × CutData × Bool × Bool) := do
  let (srs, f, cut, s) ← shortly short sample movie
  let (_, _, first) ← mkvAttempt srs movie f ⟨s.tracks, fun _ => none⟩
  let r ← mkvRetry srs movie f cut s
  return (s.tracks.map (·.2.offset), cut, first, r.good && r.file == sample)

/-- An attempt with the given offsets. -/
def wouldBe (short : List Nat) (sample movie : Bytes) (c : List (Nat × Int)) : Res (CutData × Bool × Bool × Option Bool) := do
  let (srs, f, cut, s) ← shortly short sample movie
  let s1 ← setAll setOffset c s
  let (_, r, good) ← mkvAttempt srs movie f ⟨s1.tracks, fun _ => none⟩
  return (cut, good, r.file == sample, match mkvRetry srs movie f cut s with
    | .ok r => some r.good
    | .error _ => none)

end MkvExample
open MkvExample

set_option maxRecDepth 100000 in
/-- The beginning of track 2 is found at 58; the sample is rebuilt with the next place, 72. -/
theorem retry_found : afterwards [2] (twoFile [(1, [11, 12, 13]), (2, [7]), (2, [5])])
    (twoFile [(2, [7]), (2, [1]), (2, [7]), (2, [5]), (1, [11, 12, 13])]) = .ok ([86, 58], [(2, [72])], false, true) := by decide +kernel

set_option maxRecDepth 100000 in
/-- With another such place, 86, closer to track 1, the sample is not rebuilt: 72 is not tried. -/
theorem retry_missed : wouldBe [2] (twoFile [(1, [11, 12, 13]), (2, [7]), (2, [5])])
    (twoFile [(2, [7]), (2, [1]), (2, [7]), (2, [5]), (2, [7]), (2, [3]), (1, [11, 12, 13])]) [(2, 72)] =
      .ok ([(2, [72, 86])], true, true, some false) := by decide +kernel

/-- C77, violated: not each offset that was found is tried. -/
theorem retry_finds_violated : ¬ RetryFinds := by
  intro hall
  have h := retry_missed
  unfold wouldBe at h
  simp only [bind_eq_ok, pure_eq_ok, Except.ok.injEq, Prod.mk.injEq] at h
  obtain ⟨⟨srs, f, cut, s⟩, h1, s1, h2, ⟨s2, r, good⟩, h3, hcut, rfl, hr, h4⟩ := h
  dsimp only at h2 h3 hcut h4
  subst hcut
  obtain ⟨r', h5, h6⟩ := hall srs _ f [(2, [72, 86])] s [(2, 72)] rfl
    (by
      intro x hx
      simp only [List.mem_cons, List.not_mem_nil, or_false] at hx
      subst hx
      exact Or.inr ⟨[72, 86], rfl, by simp⟩) ⟨s1, s2, r, h2, h3⟩
  rw [h5] at h4
  simp [h6] at h4

/-- The example meets the conditions of `retry_tries_choices`, and `guesses_near`. -/
example : educatedGuesses [(1, { offset := 100 }), (2, { offset := 58 })] [(2, [72, 86])] = .ok [(2, [86])] ∧
    ([(2, [72, 86])] : CutData).Pairwise (fun a b => a.1 ≠ b.1) := by decide

set_option maxRecDepth 100000 in
/-- One that is not found, for `retry_exhaustive`. -/
example : (do
    let (srs, f, cut, s) ← shortly [2] (twoFile [(1, [11, 12, 13]), (2, [7]), (2, [5])]) (twoFile [(2, [7]), (2, [1]), (2, [7]), (2, [6]), (1, [11, 12, 13])])
    let g ← educatedGuesses s.tracks cut
    let r ← mkvRetry srs (twoFile [(2, [7]), (2, [1]), (2, [7]), (2, [6]), (1, [11, 12, 13])]) f cut s
    return (g, r.good) : Res (CutData × Bool)) = .ok ([(2, [72])], false) := by decide +kernel

/-- `mkv_cut_restored_partial` for the example of C66. -/
example {srs : Bytes} (h : srsMkvCreate [97] [98] MkvExample.file false none = .ok srs) (ig : Bool) :
    srsMkvRestore srs MkvExample.movie ig = .ok ⟨MkvExample.file, MkvExample.file.length, (crc32 MkvExample.file 0).toNat, true⟩ := by
  have hn : ∀ n, HasTrack (mkvFine MkvExample.tops) n → n < 2 ^ 16 := by
    intro n h
    rcases example_tracks h with rfl | rfl <;> decide
  obtain ⟨⟨ts, hl, hr⟩, _⟩ := mkv_strip_rebuild_partial example_mkv hn h
  refine mkv_cut_restored_partial example_mkv example_mkv_movie hn h hl ?_ ?_
  · intro n t hg hb
    exact example_mkv_cut (example_block hb) (hr.known n t hg).2.2.1
  · decide +kernel

set_option maxRecDepth 100000 in
/-- Tracks for which `retry_all_short` applies. -/
example : afterwards [1, 2] (twoFile [(1, [11]), (2, [7]), (2, [5])]) (twoFile [(2, [7]), (2, [1]), (2, [7]), (2, [5]), (1, [11]), (1, [11])]) =
    .error .valueError := by decide +kernel

set_option maxRecDepth 100000 in
/-- A movie and tracks for `further_offsets`. -/
example : cutTracks [(2, { len := 1000001, sig := [21] })] = [(2, [])] ∧
    ∃ tr cut, mkvSeek [(2, { len := 1000001, sig := [21] })] (cutTracks [(2, { len := 1000001, sig := [21] })]) MkvExample.movie = .ok (tr, cut) := by
  refine ⟨by decide, ?_⟩
  obtain ⟨tr, cut, h, _⟩ := further_offsets example_mkv_movie (ts := [(2, { len := 1000001, sig := [21] })]) (by
    intro b hb t ht f hf
    right; left
    by_cases e : b.track = 2
    · simp [movGet, e] at ht
      subst ht
      rfl
    · simp [movGet, Ne.symm e] at ht)
  exact ⟨tr, cut, h⟩

end Rescene.Props
