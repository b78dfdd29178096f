import Verif.Lemmas.Search
import Verif.Lemmas.Crc
import Verif.Props.SrsData
namespace Rescene
open Spec

/-- A block as bytes. -/
def sblk (m d : Bytes) : Bytes := m ++ (le 4 (8 + d.length) ++ d)

theorem sblk_length {m d : Bytes} (hm : m.length = 4) : (sblk m d).length = 8 + d.length := by
  simp [sblk, hm]; omega

theorem srsBlock_eq_ok {m d b : Bytes} : srsBlock m d = .ok b ↔ 8 + d.length < 2 ^ 32 ∧ b = sblk m d := by
  simp only [srsBlock, bind_eq_ok, pack_eq_ok, pure_eq_ok, Except.ok.injEq]
  constructor
  · rintro ⟨_, ⟨h, rfl⟩, rfl⟩; exact ⟨by omega, rfl⟩
  · rintro ⟨h, rfl⟩; exact ⟨_, ⟨by omega, rfl⟩, rfl⟩

/-- What is done with a block, given its contents. -/
def handleItem (st : Option FileData × Tracks) (it : Bytes × Bytes) : Res (Option FileData × Tracks) :=
  if it.1 = mSRSF then do
    let f ← fileParse it.2
    return (some f, st.2)
  else if it.1 = mSRST then do
    let t ← trackParse it.2
    return (st.1, st.2.put t.number t)
  else .ok st

theorem streamStep_sblk {m d pre post : Bytes} (hm : m.length = 4) (hl : 8 + d.length < 2 ^ 32)
    (h0 : pre = [] → m = mSTRM) :
    streamStep (pre ++ (sblk m d ++ post)) pre.length =
      .ok (some (⟨m, 8 + d.length, pre.length⟩, pre.length + (8 + d.length))) := by
  have hlen : (pre ++ (sblk m d ++ post)).length = pre.length + (8 + d.length) + post.length := by
    simp [sblk_length hm]; omega
  have r1 : readAt (pre ++ (sblk m d ++ post)) pre.length 4 = m := by
    have : pre ++ (sblk m d ++ post) = pre ++ (m ++ (le 4 (8 + d.length) ++ (d ++ post))) := by simp [sblk]
    rw [this]; exact readAt_append _ _ _ rfl hm
  have r2 : readAt (pre ++ (sblk m d ++ post)) (pre.length + 4) 4 = le 4 (8 + d.length) := by
    have : pre ++ (sblk m d ++ post) = (pre ++ m) ++ (le 4 (8 + d.length) ++ (d ++ post)) := by simp [sblk]
    rw [this]; exact readAt_append _ _ _ (by simp [hm]) (by simp)
  have r3 : unpackAt 4 (le 4 (8 + d.length)) 0 = .ok (8 + d.length) := by
    have := unpackAt_append (k := 4) (n := 8 + d.length) (off := 0) [] [] rfl (by omega)
    simpa using this
  unfold streamStep
  rw [if_pos (by omega), if_neg (by omega)]
  simp only
  rw [r1, r2, r3, if_neg, ok_bind, if_neg (by omega), if_neg (by omega)]
  · rfl
  · rintro ⟨h, h1, _⟩
    exact h1 (h0 (List.length_eq_zero_iff.mp h))

theorem streamBlocks_items (items : List (Bytes × Bytes)) : ∀ (pre : Bytes) (fuel : Nat),
    (∀ it ∈ items, it.1.length = 4 ∧ 8 + it.2.length < 2 ^ 32) →
    (pre = [] → ∀ it, items.head? = some it → it.1 = mSTRM) →
    items.length < fuel →
    ∃ bl, streamBlocks (pre ++ (items.map fun i => sblk i.1 i.2).flatten) fuel pre.length = .ok bl ∧
      ∀ st, bl.foldlM (streamLoadBlock (pre ++ (items.map fun i => sblk i.1 i.2).flatten)) st =
        items.foldlM handleItem st := by
  induction items with
  | nil =>
    intro pre fuel _ _ hf
    obtain ⟨fuel, rfl⟩ : ∃ n, fuel = n + 1 := ⟨fuel - 1, by simp at hf; omega⟩
    refine ⟨[], ?_, fun st => rfl⟩
    rw [streamBlocks, streamStep, if_neg (by simp)]
    rfl
  | cons it items ih =>
    intro pre fuel hit h0 hf
    obtain ⟨fuel, rfl⟩ : ∃ n, fuel = n + 1 := ⟨fuel - 1, by simp at hf; omega⟩
    obtain ⟨hm, hl⟩ := hit it (by simp)
    obtain ⟨bl, hb, hfold⟩ := ih (pre ++ sblk it.1 it.2) fuel (fun i hi => hit i (by simp [hi]))
      (by
        intro h
        have := congrArg List.length h
        rw [List.length_append, sblk_length hm] at this
        simp at this)
      (by simp at hf; omega)
    have e : pre ++ ((it :: items).map fun i => sblk i.1 i.2).flatten =
        pre ++ (sblk it.1 it.2 ++ (items.map fun i => sblk i.1 i.2).flatten) := by simp
    have e2 : pre ++ sblk it.1 it.2 ++ (items.map fun i => sblk i.1 i.2).flatten =
        pre ++ (sblk it.1 it.2 ++ (items.map fun i => sblk i.1 i.2).flatten) := by simp
    rw [e]
    rw [e2] at hb hfold
    refine ⟨⟨it.1, 8 + it.2.length, pre.length⟩ :: bl, ?_, ?_⟩
    · rw [streamBlocks, streamStep_sblk hm hl (fun h => h0 h it rfl), ok_bind]
      simp only [List.length_append, sblk_length hm] at hb
      simp only [hb, ok_bind]
      rfl
    · intro st
      rw [List.foldlM_cons, List.foldlM_cons]
      have hc : streamLoadBlock (pre ++ (sblk it.1 it.2 ++ (items.map fun i => sblk i.1 i.2).flatten)) st
          ⟨it.1, 8 + it.2.length, pre.length⟩ = handleItem st it := by
        unfold streamLoadBlock handleItem
        have r : readAt (pre ++ (sblk it.1 it.2 ++ (items.map fun i => sblk i.1 i.2).flatten)) (pre.length + 8)
            (8 + it.2.length - 8) = it.2 := by
          have : pre ++ (sblk it.1 it.2 ++ (items.map fun i => sblk i.1 i.2).flatten) =
            (pre ++ (it.1 ++ le 4 (8 + it.2.length))) ++ (it.2 ++ (items.map fun i => sblk i.1 i.2).flatten) := by
            simp [sblk]
          rw [this]
          exact readAt_append _ _ _ (by simp [hm]) (by omega)
        have hc : ¬ 8 + it.2.length < 8 := by omega
        simp only [hc, if_false, r]
      rw [hc]
      congr 1
      funext st'
      exact hfold st'

theorem put_new {l : Tracks} {n : Nat} {t : TrackData} (h : ∀ p ∈ l, p.1 ≠ n) : l.put n t = l ++ [(n, t)] := by
  induction l with
  | nil => rfl
  | cons p l ih =>
    obtain ⟨k, x⟩ := p
    rw [Tracks.put, if_neg (h (k, x) (by simp)), ih (fun p hp => h p (by simp [hp]))]
    rfl

theorem mapM_ok_cons {α β : Type} {f : α → Res β} {a : α} {l : List α} {r : List β} :
    (a :: l).mapM f = .ok r ↔ ∃ x xs, f a = .ok x ∧ l.mapM f = .ok xs ∧ r = x :: xs := by
  rw [List.mapM_cons]
  simp only [bind_eq_ok, pure_eq_ok, Except.ok.injEq]
  constructor
  · rintro ⟨x, h1, xs, h2, rfl⟩; exact ⟨x, xs, h1, h2, rfl⟩
  · rintro ⟨x, xs, h1, h2, rfl⟩; exact ⟨x, h1, xs, h2, rfl⟩

/-- A track as read back. -/
def readTrack (bigFile : Bool) (t : TrackData) : TrackData :=
  { t with flags := if bigFile then t.flags ||| 4 else t.flags, matchLength := 0, checkBytes := [] }

theorem load_tracks {bigFile : Bool} (tracks : Tracks) : ∀ (tb : List Bytes) (acc : Tracks) (f : Option FileData),
    (∀ p ∈ tracks, p.1 = p.2.number ∧ p.2.number < 2 ^ 16 ∧ p.2.flags = 0) →
    (acc ++ tracks).Pairwise (fun a b => a.1 ≠ b.1) →
    tracks.mapM (fun (x : Nat × TrackData) => do
      let t := if bigFile then { x.2 with flags := x.2.flags ||| 4 } else x.2
      let d ← trackSerialize t
      srsBlock mSRST d) = .ok tb →
    ∃ items : List (Bytes × Bytes), tb = items.map (fun i => sblk i.1 i.2) ∧
      (∀ it ∈ items, it.1.length = 4 ∧ 8 + it.2.length < 2 ^ 32) ∧
      items.foldlM handleItem (f, acc) =
        .ok (f, acc ++ tracks.map fun p => (p.1, readTrack bigFile p.2)) := by
  induction tracks with
  | nil =>
    intro tb acc f _ _ h
    simp at h; subst h
    exact ⟨[], rfl, by simp, by simp⟩
  | cons p tracks ih =>
    intro tb acc f hp hpw h
    rw [mapM_ok_cons] at h
    obtain ⟨x, xs, h1, h2, rfl⟩ := h
    simp only [bind_eq_ok, srsBlock_eq_ok] at h1
    obtain ⟨d, hd, hl, rfl⟩ := h1
    obtain ⟨hn, hlt, hfl⟩ := hp p (by simp)
    -- the track is read back
    have hread : trackParse d = .ok (readTrack bigFile p.2) := by
      have e : (if bigFile = true then { p.2 with flags := p.2.flags ||| 4 } else p.2) =
          { p.2 with flags := if bigFile then p.2.flags ||| 4 else p.2.flags } := by
        cases bigFile <;> rfl
      rw [e] at hd
      have := Props.track_data_small_number
        { p.2 with flags := if bigFile then p.2.flags ||| 4 else p.2.flags } hlt
        (by rw [hfl]; cases bigFile <;> simp) d [] hd
      rw [List.append_nil] at this
      exact this
    have hacc : ∀ q ∈ acc, q.1 ≠ p.1 := by
      intro q hq
      exact (List.pairwise_append.mp hpw).2.2 q hq p (by simp)
    obtain ⟨items, hi1, hi2, hi3⟩ := ih xs (acc ++ [(p.1, readTrack bigFile p.2)]) f
      (fun q hq => hp q (by simp [hq]))
      (by
        have : ∀ (l : Tracks), (acc ++ [(p.1, readTrack bigFile p.2)] ++ l).map (·.1) = (acc ++ p :: l).map (·.1) := by
          intro l; simp
        have h3 : ((acc ++ p :: tracks).map (·.1)).Pairwise (· ≠ ·) := List.pairwise_map.mpr hpw
        rw [← this] at h3
        exact List.pairwise_map.mp h3)
      h2
    refine ⟨(mSRST, d) :: items, by simp [hi1], ?_, ?_⟩
    · intro it hit
      rcases List.mem_cons.mp hit with rfl | hit
      · exact ⟨rfl, hl⟩
      · exact hi2 it hit
    · rw [List.foldlM_cons]
      have : handleItem (f, acc) (mSRST, d) = .ok (f, acc ++ [(p.1, readTrack bigFile p.2)]) := by
        unfold handleItem
        rw [if_neg (show mSRST ≠ mSRSF by decide), if_pos rfl, hread, ok_bind]
        have : (readTrack bigFile p.2).number = p.1 := by rw [hn]; rfl
        rw [this, put_new hacc]
        rfl
      rw [this, ok_bind, hi3]
      simp

/-- An SRS file that was written is read back. -/
theorem load_created {app name : Str} {size crc : Nat} {tracks : Tracks} {bigFile : Bool} {srs : Bytes}
    (h : streamCreateSrs app name size crc tracks bigFile = .ok srs)
    (ht : ∀ p ∈ tracks, p.1 = p.2.number ∧ p.2.number < 2 ^ 16 ∧ p.2.flags = 0)
    (hd : tracks.Pairwise (fun a b => a.1 ≠ b.1)) :
    streamLoadSrs srs = .ok (⟨3, app, basename name, size, crc % 2 ^ 32⟩,
      tracks.map fun p => (p.1, readTrack bigFile p.2)) := by
  unfold streamCreateSrs at h
  simp only [bind_eq_ok, srsBlock_eq_ok, pure_eq_ok, Except.ok.injEq] at h
  obtain ⟨f, hf, _, ⟨hfl, rfl⟩, tb, htb, rfl⟩ := h
  have hread : fileParse f = .ok ⟨3, app, basename name, size, crc % 2 ^ 32⟩ := by
    have := Props.file_data_round_trip hf []
    rwa [List.append_nil] at this
  obtain ⟨items, hi1, hi2, hi3⟩ := load_tracks (bigFile := bigFile) tracks tb []
    (some ⟨3, app, basename name, size, crc % 2 ^ 32⟩) ht (by simpa using hd)
    (by
      rw [← htb])
  have e : mSTRM ++ ([8, 0, 0, 0] ++ (sblk mSRSF f ++ tb.flatten)) =
      [] ++ (((mSTRM, []) :: (mSRSF, f) :: items).map fun i => sblk i.1 i.2).flatten := by
    rw [hi1]; rfl
  have hlen : (((mSTRM, []) :: (mSRSF, f) :: items) : List (Bytes × Bytes)).length <
      ([] ++ (((mSTRM, []) :: (mSRSF, f) :: items).map fun i => sblk i.1 i.2).flatten : Bytes).length + 1 := by
    have : ∀ l : List (Bytes × Bytes), (∀ it ∈ l, it.1.length = 4 ∧ 8 + it.2.length < 2 ^ 32) →
        l.length ≤ ((l.map fun i => sblk i.1 i.2).flatten).length := by
      intro l
      induction l with
      | nil => simp
      | cons a l ih =>
        intro hl
        have h1 := ih (fun i hi => hl i (by simp [hi]))
        have h2 := sblk_length (d := a.2) (hl a (by simp)).1
        simp only [List.map_cons, List.flatten_cons, List.length_append, List.length_cons]
        omega
    have h3 := this ((mSTRM, []) :: (mSRSF, f) :: items) (by
      intro it hit
      rcases List.mem_cons.mp hit with rfl | hit
      · exact ⟨rfl, by simp⟩
      rcases List.mem_cons.mp hit with rfl | hit
      · exact ⟨rfl, hfl⟩
      · exact hi2 it hit)
    rw [List.nil_append]
    exact Nat.lt_succ_of_le h3
  obtain ⟨bl, hb1, hb2⟩ := streamBlocks_items ((mSTRM, []) :: (mSRSF, f) :: items) [] _
    (by
      intro it hit
      rcases List.mem_cons.mp hit with rfl | hit
      · exact ⟨rfl, by simp⟩
      rcases List.mem_cons.mp hit with rfl | hit
      · exact ⟨rfl, hfl⟩
      · exact hi2 it hit)
    (by intro _ it h; simp at h; rw [← h]) hlen
  unfold streamLoadSrs
  rw [e]
  simp only [List.length_nil] at hb1
  rw [hb1, ok_bind, hb2, List.foldlM_cons]
  have h1 : handleItem (none, []) (mSTRM, []) = .ok (none, []) := by
    unfold handleItem; rw [if_neg (by decide), if_neg (by decide)]
  have h2 : handleItem (none, []) (mSRSF, f) = .ok (some ⟨3, app, basename name, size, crc % 2 ^ 32⟩, []) := by
    unfold handleItem; rw [if_pos rfl, hread, ok_bind]; rfl
  rw [h1, ok_bind, List.foldlM_cons, h2, ok_bind, hi3, ok_bind]
  rfl

end Rescene
