import Verif.Props.Independent
import Verif.Props.OneVolumeExample
/-
C116: the SRR of damaged volumes.
-/
namespace Rescene.Props
open Rescene Rescene.Spec

/-- The disk that has the volumes as they were. -/
def undamaged (vols : List (RarIn × Bytes)) : FS := fun p => (vols.find? fun v => v.1.exact = p).map (·.2)

theorem undamaged_has : ∀ (vols : List (RarIn × Bytes)), (vols.map fun v => v.1.exact).Nodup → ∀ v ∈ vols,
    undamaged vols v.1.exact = some v.2 := by
  intro vols
  induction vols with
  | nil => intro _ v hv; simp at hv
  | cons w t ih =>
    intro hn v hv
    rw [List.map_cons, List.nodup_cons] at hn
    unfold undamaged
    rw [List.find?_cons]
    rcases List.mem_cons.mp hv with rfl | hv
    · simp
    · have hne : w.1.exact ≠ v.1.exact := fun e => hn.1 (e ▸ List.mem_map_of_mem (f := fun v : RarIn × Bytes => v.1.exact) hv)
      simp only [hne, decide_false]
      exact ih hn.2 v hv

/-- C116: an SRR is made from volumes of which the headers are undamaged, but packed data or recovery records may be damaged (`vols` are
the volumes as they were, and they could be rebuilt).  Reconstruction with the right files gives the volumes as they were. -/
theorem damaged_rebuilt {dig : Nat → Bool} {lower : Str → Str} {fuel : Nat} {fs0 : FS} {app : Str}
    {stored : List (Str × Path)} {vols : List (RarIn × Bytes)} {compressed oso : Bool} {srr : Bytes}
    (hcreate : createSrr dig lower fuel fs0 app stored (vols.map (·.1)) compressed oso = .ok srr)
    (hvols : ∀ v ∈ vols, GoodVolume v.2 ∧ ∃ damaged, fs0 v.1.exact = some damaged ∧ SameButPacked v.2 damaged)
    (hpaths : (vols.map fun v => v.1.exact).Nodup) (hne : vols ≠ [])
    {a : RecArgs} {fs1 : FS} (hsrr : fs1 a.srr = some srr) (hpart : a.part = [])
    {ext : List Path}
    (hext : a.extractFiles = true → ∀ x ∈ stored, ∃ p ∈ ext, opath x.1 a.extractPaths a.outFolder = .ok p ∧ p ≠ a.srr)
    {out : RarIn × Bytes → Path}
    (hout : ∀ v ∈ vols, opath v.1.name a.extractPaths a.outFolder = .ok (out v) ∧
      (fs1 (out v) = none ∧ out v ∉ ext ∨ a.ask (out v) = true))
    (hdiff : (vols.map out).Nodup)
    (hsrc : Packs (SourceIs a fs1 (vols.map out ++ ext)) none (vols.flatMap fun v => volumeParts v.2)) :
    ∃ fs2 reports, reconstruct a fs1 = .ok (fs2, reports, true) ∧
      (∀ v ∈ vols, fs2 (out v) = some v.2) ∧
      ∀ q, q ∉ vols.map out → q ∉ ext → fs2 q = fs1 q := by
  unfold createSrr at hcreate
  simp only [bind_eq_ok, pure_eq_ok, Except.ok.injEq] at hcreate
  obtain ⟨hd, h1, s, h2, x, h3, o, h4, h5⟩ := hcreate
  obtain ⟨files, f1, f2, f3⟩ := writeStored h2
  have hind : createVolumes fs0 compressed [] (vols.map (·.1)) = createVolumes (undamaged vols) compressed [] (vols.map (·.1)) := by
    refine volumes_independent (fs := undamaged vols) (fs' := fs0) _ [] ?_
    intro r hr
    obtain ⟨v, hv, rfl⟩ := List.mem_map.mp hr
    obtain ⟨hg, d, hd, hs⟩ := hvols v hv
    exact ⟨v.2, d, undamaged_has vols hpaths v hv, hd, hg.1, hs⟩
  rw [hind] at h3
  have hw := writeVolumes (fs := undamaged vols) (fun v hv => ⟨undamaged_has vols hpaths v hv, (hvols v hv).1⟩)
    (oso := []) (oso' := x.2) (bytes := x.1) h3
  obtain ⟨osos, o1, o2⟩ : ∃ ps, (∀ p ∈ ps, ∃ s h n, p = Piece.oso s h n) ∧ writePieces ps = .ok o := by
    cases oso with
    | false =>
      simp at h4
      exact ⟨[], by simp, by rw [h4]; rfl⟩
    | true =>
      simp only [if_true] at h4
      exact osoPieces_pieces h4
  have hwr : writeSrr app (storedPieces files ++ (volumesPieces vols ++ osos)) = .ok srr := by
    unfold writeSrr
    rw [h1, ok_bind, writePieces_append _ _ f3 (writePieces_append _ _ hw o2), ok_bind, ← h5]
    rfl
  refine written_reconstruct hwr o1 (fun v hv => (hvols v hv).1) hne hsrr hpart (fun hx y hym => ?_) hout hdiff hsrc
  have : y.1 ∈ stored.map (·.1) := by rw [← f1]; exact List.mem_map_of_mem hym
  obtain ⟨z, hz, hzy⟩ := List.mem_map.mp this
  obtain ⟨p, e1, e2, e3⟩ := hext hx z hz
  exact ⟨p, e1, by rw [← hzy]; exact e2, e3⟩

/-- An SRR is made from damaged volumes and a volume is rebuilt with the right files `x` and `y`. -/
def exDamaged (vols : List (Str × Bytes)) (out : Path) : Res (Option Bytes) :=
  exResult (exPartOf (vols.map fun v => (⟨str "/in/" ++ v.1, str "/in/" ++ v.1, v.1⟩, v.2)) []) out

/-- `PackedByte`, computed. -/
def packedByteB (data : Bytes) (i : Nat) : Bool :=
  match readTrace data with
  | .ok tr => tr.any fun x => (x.1.btype == 0x74 || isRecovery x.1) && decide (x.1.pos + x.1.raw.length ≤ i) && decide (i < x.2)
  | .error _ => false

theorem packed_of_check {data : Bytes} {i : Nat} (h : packedByteB data i = true) : PackedByte data i := by
  unfold packedByteB at h
  split at h
  · next tr htr =>
    obtain ⟨x, hx, h⟩ := List.any_eq_true.mp h
    simp only [Bool.and_eq_true, Bool.or_eq_true, beq_iff_eq, decide_eq_true_eq] at h
    exact ⟨tr, htr, x, hx, h.1.1, h.1.2, h.2⟩
  · simp at h

/-- Two bytes are damaged. -/
theorem same_of_two (data : Bytes) (i j : Nat) (x y : UInt8) (hi : PackedByte data i) (hj : PackedByte data j) :
    SameButPacked data ((data.set i x).set j y) := by
  refine ⟨by simp, ?_⟩
  intro k hk
  by_cases h1 : k = i
  · exact h1 ▸ hi
  · by_cases h2 : k = j
    · exact h2 ▸ hj
    · exfalso
      apply hk
      rw [List.getElem?_set, List.getElem?_set]
      simp [Ne.symm h1, Ne.symm h2]

/-- The first volume of the example of C06, with damage in the file and in the recovery record. -/
def exBadData : Bytes := (exVol1.set 54 77).set 112 77

/-- The hypotheses of `damaged_rebuilt` hold for it. -/
example : GoodVolume exVol1 ∧ SameButPacked exVol1 exBadData ∧ exVol1 ≠ exBadData ∧
    (createSrr exDig id 5 (fun _ => some exBadData) (str "app") [] [⟨str "/in/a.rar", str "/in/a.rar", str "a.rar"⟩] false false).isOk = true :=
  ⟨exVol1_good, same_of_two exVol1 54 112 77 77 (packed_of_check (by decide +kernel)) (packed_of_check (by decide +kernel)),
    by decide +kernel, by decide +kernel⟩

/-- A volume with a comment of three bytes in front of the file, as it was and with one damaged byte in the header. -/
def exWithComment (type : UInt8) : Bytes := exVolOf [[0, 0, type, 0, 0x80, 11, 0, 3, 0, 0, 0, 5, 5, 5], exFileOf 0 0x78 3 [1, 2, 3]]

/-- C116 is false for damaged headers: with another type the block is taken into the SRR and left out of the volume, without an error.
What is written is neither the volume as it was nor the damaged one. -/
theorem damaged_type_dropped :
    goodVolumeB (exWithComment 0x77) = true ∧
    exDamaged [(str "a.rar", exWithComment 0x77)] (str "/o/a.rar") = .ok (some (exWithComment 0x77)) ∧
    exDamaged [(str "a.rar", exWithComment 0x87)] (str "/o/a.rar") = .ok (some (exVolOf [exFileOf 0 0x78 3 [1, 2, 3]])) := by
  refine ⟨?_, ?_, ?_⟩ <;> decide +kernel

/-- A volume that ends in a comment of 60 bytes. -/
def exLongComment : Bytes :=
  [0x52, 0x61, 0x72, 0x21, 0x1A, 0x07, 0x00] ++ [0, 0, 0x73, 0, 0, 13, 0, 0, 0, 0, 0, 0, 0] ++ exFileOf 2 0x78 3 [1, 2] ++
    ([0, 0, 0x77, 0, 0x80, 11, 0, 60, 0, 0, 0] ++ List.replicate 60 5)

/-- The volume behind it. -/
def exBehind : Bytes := exVolOf [exFileOf 1 0x78 3 [3]]

/-- C116 is false for volumes that are cut off: when that is in the data of a comment it is not noticed, and in the SRR the comment goes on
with the blocks of the next volume.  The next volume, which is undamaged, can not be rebuilt any more. -/
theorem cut_volume_takes_next :
    goodVolumeB exLongComment = true ∧ goodVolumeB exBehind = true ∧
    exDamaged [(str "a.rar", exLongComment), (str "a.r00", exBehind)] (str "/o/a.r00") = .ok (some exBehind) ∧
    exDamaged [(str "a.rar", exLongComment.take (exLongComment.length - 59)), (str "a.r00", exBehind)] (str "/o/a.r00") ≠ .ok (some exBehind) ∧
    (createSrr exDig id 5 (fun p => if p = str "/in/a.rar" then some (exLongComment.take (exLongComment.length - 59)) else some exBehind) (str "app") []
      [⟨str "/in/a.rar", str "/in/a.rar", str "a.rar"⟩, ⟨str "/in/a.r00", str "/in/a.r00", str "a.r00"⟩] false false).isOk = true := by
  refine ⟨?_, ?_, ?_, ?_, ?_⟩ <;> decide +kernel

/-- C116 is false for the type of stored files (which a volume can not have): the SRR can be made, but not read. -/
theorem damaged_type_stored :
    (createSrr exDig id 5 (fun _ => some (exWithComment 0x6A)) (str "app") [] [⟨str "/in/a.rar", str "/in/a.rar", str "a.rar"⟩] false false).isOk = false ∧
    (createSrr exDig id 5 (fun _ => some (exVolOf [[0, 0, 0x6A, 0, 0x80, 14, 0, 3, 0, 0, 0, 1, 0, 0x78, 9, 9, 9], exFileOf 0 0x78 3 [1, 2, 3]])) (str "app") []
      [⟨str "/in/a.rar", str "/in/a.rar", str "a.rar"⟩] false false).isOk = true ∧
    exDamaged [(str "a.rar", exVolOf [[0, 0, 0x6A, 0, 0x80, 14, 0, 3, 0, 0, 0, 1, 0, 0x78, 9, 9, 9], exFileOf 0 0x78 3 [1, 2, 3]])] (str "/o/a.rar") = .error .envError := by
  refine ⟨?_, ?_, ?_⟩ <;> decide +kernel

end Rescene.Props
