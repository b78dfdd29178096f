import Verif.Props.MovExample
/-
C63: loops over the atoms of an MP4 file end.
-/
namespace Rescene.Props
open Rescene Rescene.Spec

/-- A 64-bit size of zero, at `pos`. -/
def ZeroSize (file : Bytes) (pos : Nat) : Prop :=
  readAt file pos 4 = [0, 0, 0, 1] ∧ readAt file (pos + 8) 8 = [0, 0, 0, 0, 0, 0, 0, 0]

theorem ofBe_zero : ∀ {b : Bytes}, ofBe b = 0 → b = List.replicate b.length 0 := by
  intro b h
  have := be_ofBe b
  rw [h] at this
  rw [← this]
  simp only [be_length]
  unfold be
  have hz : ∀ n, le n 0 = List.replicate n 0 := by
    intro n
    induction n with
    | zero => rfl
    | succ n ih => simp only [le, List.replicate_succ]; rw [Nat.zero_div, ih]; rfl
  rw [hz, List.reverse_replicate]

theorem movRead_some {mode : MovMode} {file : Bytes} {pos : Nat} {a : MovAtom} (h : movRead mode file pos = .ok (some a)) :
    a.start = pos ∧ pos + 8 ≤ file.length ∧ 8 ≤ a.header.length ∧ (a.size = 0 → ZeroSize file pos ∧ a.type = readAt file (pos + 4) 4) := by
  unfold movRead at h
  split at h
  · simp at h
  · rename_i hlen
    have h8 : (readAt file pos 8).length = 8 := by simp [readAt]; omega
    simp only [bind_eq_ok] at h
    obtain ⟨len, hl, ⟨size, header⟩, hs, h⟩ := h
    dsimp only at h
    split at h
    · simp at h
    · injection h with h
      injection h with h
      subst h
      refine ⟨rfl, by omega, ?_, ?_⟩
      · split at hs
        · simp only [bind_eq_ok] at hs
          obtain ⟨n, _, hs⟩ := hs
          injection hs with hs
          injection hs with _ hs
          rw [← hs, List.length_append, h8]
          omega
        · split at hs
          · split at hs
            · injection hs with hs; injection hs with _ hs; rw [← hs, h8]; omega
            · injection hs with hs; injection hs with _ hs; rw [← hs, h8]; omega
          · injection hs with hs; injection hs with _ hs; rw [← hs, h8]; omega
      · dsimp only
        intro hz
        subst hz
        split at hs
        · rename_i hone
          simp only [bind_eq_ok] at hs
          obtain ⟨n, hn, hs⟩ := hs
          injection hs with hs
          injection hs with hs _
          subst hs
          subst hone
          unfold unpackBeAt at hl hn
          split at hl
          · split at hn
            · rename_i hb
              injection hl with hl
              injection hn with hn
              have e1 : slice (readAt file pos 8) 0 (0 + 4) = readAt file pos 4 := by
                simp [slice, readAt, List.take_take]
              have e2 : slice (readAt file (pos + 8) 8) 0 (0 + 8) = readAt file (pos + 8) 8 := by
                simp [slice, readAt, List.take_take]
              rw [e1] at hl
              rw [e2] at hn
              have hb8 : (readAt file (pos + 8) 8).length = 8 := by
                have : (readAt file (pos + 8) 8).length ≤ 8 := by simp [readAt]; omega
                omega
              have h4 : (readAt file pos 4).length = 4 := by simp [readAt]; omega
              refine ⟨⟨?_, ?_⟩, ?_⟩
              · have := be_ofBe (readAt file pos 4)
                rw [hl, h4] at this
                rw [← this]; decide
              · rw [ofBe_zero hn, hb8]; rfl
              · simp only [readAt, List.drop_take, List.drop_drop]
            · simp at hn
          · simp at hl
        · split at hs
          · split at hs
            · injection hs with hs; injection hs with hs _; omega
            · injection hs with hs; injection hs with hs _; omega
          · injection hs with hs; injection hs with hs _; omega

/-- Steps go forward, except over an atom of size zero that is skipped. -/
theorem movContents_forward {how : MovHow} {file : Bytes} {a : MovAtom} {d : Bytes} {q : Nat}
    (h : movContents how file a = .ok (d, q)) (hl : 8 ≤ a.header.length) (hz : how = .skip → a.size ≠ 0) : a.start < q := by
  unfold movContents at h
  cases how with
  | child => injection h with h; injection h with _ h; omega
  | skip =>
    have := hz rfl
    dsimp only at h
    split at h
    · injection h with h; injection h with _ h; omega
    · simp at h
  | read =>
    dsimp only at h
    split at h
    · injection h with h; injection h with _ h; omega
    · split at h
      · simp at h
      · split at h
        · injection h with h; injection h with _ h; omega
        · simp at h
  | chunks =>
    dsimp only at h
    split at h
    · injection h with h; injection h with _ h; omega
    · split at h
      · simp at h
      · injection h with h; injection h with _ h; omega

/-- C63, for the loops over the atoms of an MP4 file: whatever the file and whatever the loop does with
the atoms, the loop ends after at most one step for each byte of the file, because more steps make no
difference.  The condition is that no atom with a 64-bit size of zero is skipped. -/
theorem mp4_loops_end_partial {σ : Type} {mode : MovMode} {how : Bytes → MovHow} {file : Bytes} {f : σ → MovItem → Res σ}
    (hz : ∀ pos, ZeroSize file pos → how (readAt file (pos + 4) 4) ≠ .skip) :
    ∀ (n m pos : Nat) (s : σ), file.length + 1 ≤ n + pos → file.length + 1 ≤ m + pos → 0 < n → 0 < m →
    movLoop mode how file f n pos s = movLoop mode how file f m pos s := by
  intro n
  induction n with
  | zero => intro m pos s _ _ h _; omega
  | succ n ih =>
    intro m pos s hn hm _ hm0
    obtain ⟨m, rfl⟩ : ∃ k, m = k + 1 := ⟨m - 1, by omega⟩
    unfold movLoop
    cases hr : movRead mode file pos with
    | error e => rfl
    | ok o =>
      rw [ok_bind, ok_bind]
      cases o with
      | none => rfl
      | some a =>
        obtain ⟨h1, h2, h3, h4⟩ := movRead_some hr
        dsimp only
        cases hc : movContents (how a.type) file a with
        | error e => rfl
        | ok x =>
          obtain ⟨d, q⟩ := x
          have hq := movContents_forward hc h3 (by
            intro hs h0
            obtain ⟨h5, h6⟩ := h4 h0
            exact hz pos h5 (h6 ▸ hs))
          rw [ok_bind, ok_bind]
          dsimp only
          cases f s ⟨a, d⟩ with
          | error e => rfl
          | ok s' =>
            rw [ok_bind, ok_bind]
            exact ih m q s' (by omega) (by omega) (by omega) (by omega)

/-- Rebuilding a sample ends: only our own atoms are skipped. -/
theorem mp4_rebuild_ends {order : List (Nat × Nat × Nat)} {srs : Bytes} (hz : ∀ pos, ZeroSize srs pos →
      readAt srs (pos + 4) 4 ≠ mSRSF ∧ readAt srs (pos + 4) 4 ≠ mSRST) {n : Nat} (hn : srs.length + 1 ≤ n) (s : MovRebuild) :
    movLoop .srs rebuildHow srs (mp4RebuildItem order) n 0 s = movWalk .srs rebuildHow srs (mp4RebuildItem order) s :=
  mp4_loops_end_partial (fun pos h => by
    obtain ⟨h1, h2⟩ := hz pos h
    unfold rebuildHow
    rw [if_neg (fun h => h.elim h1 h2)]
    split <;> simp) n _ 0 s (by omega) (by omega) (by omega) (by omega)

/-- Profiling a sample always ends: nothing is skipped. -/
theorem mp4_profile_ends (sample : Bytes) {n : Nat} (hn : sample.length + 1 ≤ n) (s : MovProfile) :
    movLoop .sample (profileHow true) sample (movProfileItem sample) n 0 s =
      movWalk .sample (profileHow true) sample (movProfileItem sample) s :=
  mp4_loops_end_partial (fun pos h => by
    unfold profileHow
    split
    · simp
    · split <;> simp) n _ 0 s (by omega) (by omega) (by omega) (by omega)

/-- A file with an "mdat" atom that has a 64-bit size of zero. -/
def stuckMp4 : Bytes := [0, 0, 0, 1] ++ mdatType ++ [0, 0, 0, 0, 0, 0, 0, 0]

/-- Looking for the tracks of a sample in such a file goes on for ever: no number of steps is enough. -/
theorem mp4_find_does_not_end (file : Bytes) (n : Nat) : ∀ {s : MovProfile}, Settled s.st →
    movLoop .sample (profileHow false) stuckMp4 (movProfileItem file) n 0 s = .error .fuel := by
  induction n with
  | zero => intro s _; rfl
  | succ n ih =>
    intro s hs
    have hr : movRead .sample stuckMp4 0 = .ok (some ⟨0, mdatType, stuckMp4, 0⟩) := by decide
    have hc : movContents (profileHow false mdatType) stuckMp4 ⟨0, mdatType, stuckMp4, 0⟩ = .ok ([], 0) := by decide
    have hi : ∃ s', movProfileItem file s ⟨⟨0, mdatType, stuckMp4, 0⟩, []⟩ = .ok s' ∧ s'.st = s.st := by
      unfold movProfileItem
      have hm := movStep_noop (file := file) hs (l := (mdatType, [])) rfl
      dsimp only
      rw [if_neg (by decide), if_pos (show mdatType = aMdat from rfl)]
      dsimp only
      rw [hm]
      exact ⟨_, rfl, rfl⟩
    obtain ⟨s', h1, h2⟩ := hi
    unfold movLoop
    rw [hr, ok_bind]
    dsimp only
    rw [hc, ok_bind]
    dsimp only
    rw [h1, ok_bind]
    exact ih (by rw [h2]; exact hs)

example : mp4Find [(1, {})] stuckMp4 = .error .fuel := by
  have := mp4_find_does_not_end stuckMp4 (stuckMp4.length + 1) (s := {}) (Or.inl rfl)
  unfold mp4Find
  rw [show movProfile false stuckMp4 = .error .fuel from this]
  rfl

/-- The condition of the theorem is met by the sample of `example_plain`, which has no zero size. -/
example : movLoop .sample (profileHow true) (mp4Bytes Mp4Example.before .narrow Mp4Example.media Mp4Example.after)
    (movProfileItem (mp4Bytes Mp4Example.before .narrow Mp4Example.media Mp4Example.after)) 5000 0 {} =
    movProfile true (mp4Bytes Mp4Example.before .narrow Mp4Example.media Mp4Example.after) :=
  mp4_profile_ends _ (by decide +kernel) _

end Rescene.Props
