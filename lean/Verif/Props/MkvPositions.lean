import Verif.Props.MkvRetry
import Verif.Props.MkvCut
/-
C77: where the files of the tracks are read after an attempt.
-/
namespace Rescene.Props
open Rescene Rescene.Spec

/-- What is left of the files is an end of what was in them. -/
def LeftOf (files : TrackFiles) (s : MkvRebuild) : Prop :=
  ∀ n d, files n = some d → ∃ rest, s.files n = some rest ∧ rest <:+ d

theorem takeLength_left {rest b r : Bytes} {n : Int} (h : takeLength rest n = .ok (b, r)) : r <:+ rest := by
  unfold takeLength at h
  split at h
  · cases h; exact List.drop_suffix _ _
  · split at h
    · cases h; exact List.nil_suffix
    · cases h

theorem rebuildItem_left {tracks : MkvTracks} {files : TrackFiles} {s s' : MkvRebuild} {e : EbmlElem} {d : Bytes} {b : Bool}
    (hs : LeftOf files s) (h : mkvRebuildItem tracks s e d = .ok (s', b)) : LeftOf files s' := by
  unfold mkvRebuildItem at h
  split at h
  · cases h; exact hs
  · dsimp only at h
    split at h
    · rename_i bl hb
      split at h
      · cases h
      · split at h
        · cases h
        · rename_i rest hrest
          simp only [bind_eq_ok, pure_eq_ok, Except.ok.injEq, Prod.mk.injEq] at h
          obtain ⟨⟨buff, rest'⟩, h1, rfl, _⟩ := h
          intro n x hx
          obtain ⟨r, hr, hsuf⟩ := hs n x hx
          by_cases hk : n = bl.track
          · subst hk
            rw [hrest] at hr
            cases hr
            exact ⟨rest', by simp [TrackFiles.set], (takeLength_left h1).trans hsuf⟩
          · exact ⟨r, by simpa [TrackFiles.set, hk] using hr, hsuf⟩
    · split at h
      · split at h
        · cases h
        · split at h
          · cases h
          · cases h
          · cases h; exact hs
      · cases h; exact hs

/-- C77: after an attempt each file has its contents, and the next write to it goes to where the rebuilding stopped reading: behind the
position there is exactly what it did not read. -/
theorem rebuild_positions {srs : Bytes} {flags : Nat} {tracks : MkvTracks} {files files' : LiveFiles} {atts : MkvAttach} {out : Bytes}
    {crc : BitVec 32} (h : mkvRebuildOn srs flags tracks files atts = .ok (out, crc, files')) :
    ∃ s : MkvRebuild, mkvWalk .srs true (mkvRebuildHow flags) srs (mkvRebuildItem tracks)
        { files := fun n => (files n).map (·.data), atts := atts } = .ok s ∧ s.out = out ∧
      ∀ n, (files n = none → files' n = none) ∧
        ∀ f, files n = some f → ∃ f' rest, files' n = some f' ∧ s.files n = some rest ∧ f'.data = f.data ∧
          f'.pos ≤ f.data.length ∧ f.data.drop f'.pos = rest := by
  unfold mkvRebuildOn at h
  simp only [bind_eq_ok, pure_eq_ok, Except.ok.injEq, Prod.mk.injEq] at h
  obtain ⟨s, hs, h1, _, rfl⟩ := h
  refine ⟨s, hs, h1, ?_⟩
  have hl : LeftOf (fun n => (files n).map (·.data)) s := by
    unfold mkvWalk at hs
    exact mkvLoop_inv (LeftOf (fun n => (files n).map (·.data))) (fun s e d x hx hy => rebuildItem_left (b := x.2) hx hy)
      (fun n d hd => ⟨d, hd, List.suffix_refl _⟩) hs
  intro n
  refine ⟨fun hn => by simp [hn], fun f hf => ?_⟩
  obtain ⟨rest, hr, a, ha⟩ := hl n f.data (by simp [hf])
  refine ⟨⟨f.data, f.data.length - rest.length⟩, rest, by simp [hf, hr], hr, rfl, ?_, ?_⟩
  · simp
  · dsimp only
    rw [← ha]
    simp

set_option maxRecDepth 100000 in
open MkvExample in
/-- After the first attempt of `retry_found` both files are read to their ends, and there is something in them. -/
example : (shortly [2] (twoFile [(1, [11, 12, 13]), (2, [7]), (2, [5])])
    (twoFile [(2, [7]), (2, [1]), (2, [7]), (2, [5]), (1, [11, 12, 13])])).map (fun x => (x.2.2.2.files 1, x.2.2.2.files 2)) =
      .ok (some ⟨[11, 12, 13], 3⟩, some ⟨[7, 1], 2⟩) := by decide +kernel

end Rescene.Props
