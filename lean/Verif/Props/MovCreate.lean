import Verif.Props.Mov
import Verif.Props.MovExample
import Verif.Props.Riff
/-
C40: an SRS can be made of every MP4 sample of the usual form.
-/
namespace Rescene.Props
open Rescene Spec

/-- The tracks together are the media data. -/
theorem plain_media {before after : List MovTop} {form : MovForm} {media : Bytes} {tracks : List MovLayout}
    (hp : PlainMp4 before form media after tracks) :
    (tracks.map fun t => (layoutData (mp4Bytes before form media after) t).length).sum ≤ (mp4Bytes before form media after).length := by
  obtain ⟨l, hl, hc⟩ := hp.tiles
  have e1 : (tracks.map fun t => (layoutData (mp4Bytes before form media after) t).length) =
      tracks.map fun t => (t.chunks.flatMap (·.2)).sum := List.map_congr_left fun t ht => layout_length (hp.inside t ht)
  have hm := plain_meta hp
  rw [e1, ← pieces_sum, ← (hl.map (·.2)).sum_nat, (consecutive_data [] l _ _ hc).2.2]
  omega

theorem le_sum_map {α : Type} {f : α → Nat} : ∀ {l : List α} {a : α}, a ∈ l → f a ≤ (l.map f).sum
  | b :: l, a, h => by
    rw [List.map_cons, List.sum_cons]
    rcases List.mem_cons.1 h with rfl | h
    · omega
    · have := le_sum_map (f := f) h
      omega

theorem movBlock_accepts (marker : Bytes) {data : Bytes} (h : data.length + 8 < 2 ^ 32) : ∃ b, movBlock marker data = .ok b := by
  unfold movBlock packBe
  rw [if_pos (by simpa using h)]
  exact ⟨_, rfl⟩

/-- C40: an SRS is created of every MP4 file of well-formed atoms whose media data is made up of the
chunks of its tracks, with at least one track and below 2 GiB (with "-b" below 2^63 bytes), when its name
can be encoded. -/
theorem mp4_create_succeeds {before after : List MovTop} {form : MovForm} {media : Bytes} {tracks : List MovLayout}
    (hp : PlainMp4 before form media after tracks) (hid : ∀ t ∈ tracks, t.id < 2 ^ 16) (hne : tracks ≠ []) {app name : Str} {big : Bool}
    (hsize : big = false → (mp4Bytes before form media after).length < 2 ^ 31)
    (happ : Encodable app ∧ utf8Len app < 2 ^ 16) (hname : Encodable (basename name) ∧ utf8Len (basename name) < 2 ^ 16) :
    ∃ srs, srsMp4Create app name (mp4Bytes before form media after) big none = .ok srs := by
  have h63 : (mp4Bytes before form media after).length < 2 ^ 63 := hp.size
  have hsum := plain_media hp
  have hle : ∀ t ∈ tracks, (layoutData (mp4Bytes before form media after) t).length ≤ (mp4Bytes before form media after).length :=
    fun t ht => Nat.le_trans (le_sum_map (f := fun t => (layoutData (mp4Bytes before form media after) t).length) ht) hsum
  obtain ⟨f, hf⟩ := (file_data_accepted_iff app 3 name (mp4Bytes before form media after).length
    (crc32 (mp4Bytes before form media after) 0).toNat).2 ⟨happ.1, happ.2, hname.1, hname.2, by omega, by omega⟩
  obtain ⟨fb, hfb⟩ := movBlock_accepts mSRSF (data := f) (by have := file_data_short hf; omega)
  let trk : Tracks := tracks.map fun t => (t.id,
        { number := t.id
          dataLength := (layoutData (mp4Bytes before form media after) t).length
          sig := (layoutData (mp4Bytes before form media after) t).take 256 })
  obtain ⟨tb, htb⟩ := mapM_ok (l := trk) (f := fun (x : Nat × TrackData) => (do
      let t := if big then { x.2 with flags := x.2.flags ||| 4 } else x.2
      let d ← trackSerialize t
      movBlock mSRST d : Res Bytes)) (by
    intro x hx
    obtain ⟨t, ht, rfl⟩ := List.mem_map.1 hx
    have hl := hle t ht
    have hi := hid t ht
    obtain ⟨d, hd⟩ := (track_data_accepted_iff (if big then { ({ number := t.id
                                                                 dataLength := (layoutData (mp4Bytes before form media after) t).length
                                                                 sig := (layoutData (mp4Bytes before form media after) t).take 256 } : TrackData) with flags := 0 ||| 4 }
        else { number := t.id
               dataLength := (layoutData (mp4Bytes before form media after) t).length
               sig := (layoutData (mp4Bytes before form media after) t).take 256 })).2 (by
      cases big
      · have := hsize rfl
        refine ⟨by simp, ?_, ?_, by simp, by simp, ?_⟩
        · simp only [Bool.false_eq_true, if_false]; omega
        · simp only [Bool.false_eq_true, if_false]
          rw [if_neg (by decide)]; omega
        · simp only [Bool.false_eq_true, if_false, List.length_take]; omega
      · refine ⟨by simp, ?_, ?_, by simp, by simp, ?_⟩
        · simp only [if_true]; omega
        · simp only [if_true]
          rw [if_pos (by decide)]; omega
        · simp only [if_true, List.length_take]; omega)
    obtain ⟨b, hb⟩ := movBlock_accepts mSRST (data := d) (by have := track_data_short hd; omega)
    exact ⟨b, by dsimp only; rw [hd, ok_bind, hb]⟩)
  have hown : mp4SrsAtoms app name (mp4Bytes before form media after).length (crc32 (mp4Bytes before form media after) 0).toNat trk big =
      .ok (fb ++ tb.flatten) := by
    unfold mp4SrsAtoms
    rw [hf, ok_bind, hfb, ok_bind]
    have e : trk.mapM (fun x : Nat × TrackData => (match x with
        | (_, t) => do
          let t := if big then { t with flags := t.flags ||| 4 } else t
          let d ← trackSerialize t
          movBlock mSRST d : Res Bytes)) = .ok tb := htb
    rw [e]
    rfl
  obtain ⟨f', ds, _, _, _, hb⟩ := srsAtoms_ok (by
    intro p hpm
    obtain ⟨t, ht, rfl⟩ := List.mem_map.1 hpm
    exact ⟨rfl, hid t ht, rfl⟩) hown
  have key : ∃ srs, mp4CreateSrs app name (mp4Bytes before form media after).length (crc32 (mp4Bytes before form media after) 0).toNat trk big
      (mp4Bytes before form media after) = .ok srs := by
    unfold mp4Bytes at hown ⊢
    rw [mp4Create_eq hp.ok.ok (topEnds_of hp.ok.top) hp.size, hown, hb, create_fold4]
    exact ⟨_, rfl⟩
  unfold srsMp4Create
  rw [if_neg (by rintro ⟨h1, h2⟩; have := hsize h2; omega), mp4_profiled hp, ok_bind]
  dsimp only
  rw [if_neg (by simpa using hne)]
  exact key

/-- The hypotheses are met by the file of the other examples. -/
example : ∃ srs, srsMp4Create (str "app") (str "/x/s.mp4") (mp4Bytes Mp4Example.before .narrow Mp4Example.media Mp4Example.after) false none = .ok srs :=
  mp4_create_succeeds example_plain (by decide) (by decide) (fun _ => by decide +kernel) ⟨by unfold Encodable; decide, by decide⟩
    ⟨by unfold Encodable; decide, by decide⟩

end Rescene.Props
