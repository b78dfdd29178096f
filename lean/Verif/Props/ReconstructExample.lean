import Verif.Props.Reconstruct
import Verif.Props.Streams
/-
A set of two volumes that is created and reconstructed.
-/
namespace Rescene.Props
open Rescene.Spec

/-- Whether a block can be rebuilt, computed. -/
def restorableB (data : Bytes) (x : Block × Nat) : Bool :=
  (decide (x.1.kind = .padding (data.length - x.1.pos)) && decide (x.1.pos < data.length) &&
    decide (x.1.raw.drop 11 = data.drop x.1.pos) && decide (x.1.raw.length = 11 + (data.length - x.1.pos))) ||
    (decide (0x72 ≤ x.1.btype ∧ x.1.btype ≤ 0x7B ∨ x.1.btype = 0 ∧ x.1.hsize = 20) &&
    decide (x.1.raw.length = x.1.hsize + keptLen x.1) &&
    decide (x.1.btype = 0x74 ∨ x.1.btype = 0x78 ∨ x.1.btype = 0x7A → x.1.hsize ≠ 7) &&
    decide (isRecovery x.1 = true ↔ (sectorsOf x.1).isSome = true) &&
    (match sectorsOf x.1 with
      | none => true
      | some (rs, ds) =>
        if rs = 0 then decide (x.2 = x.1.pos + x.1.raw.length)
        else decide (sectorCount (data.take x.1.pos) ≤ ds) &&
          decide (slice data (x.1.pos + x.1.raw.length) x.2 = recoveryData (data.take x.1.pos) rs ds)))

/-- Whether a volume can be rebuilt, computed. -/
def goodVolumeB (data : Bytes) : Bool :=
  match openReader data, readTrace data with
  | .ok .rar, .ok tr => tr.all (restorableB data)
  | _, _ => false

theorem restorable_of_check {data : Bytes} {x : Block × Nat} (h : restorableB data x = true) : Restorable data x.1 x.2 := by
  unfold restorableB at h
  simp only [Bool.or_eq_true, Bool.and_eq_true, decide_eq_true_eq] at h
  rcases h with h | ⟨⟨⟨⟨h1, h2⟩, h3⟩, h4⟩, h5⟩
  · exact Or.inl ⟨h.1.1.1, h.1.1.2, h.1.2, h.2⟩
  · refine Or.inr ⟨h1, h2, h3, h4, ?_⟩
    intro rs ds hs
    rw [hs] at h5
    dsimp only at h5
    split
    · rename_i hz
      rw [if_pos hz] at h5
      simpa using h5
    · rename_i hz
      rw [if_neg hz] at h5
      simpa using h5

theorem good_of_check {data : Bytes} (h : goodVolumeB data = true) : GoodVolume data := by
  unfold goodVolumeB at h
  split at h
  · rename_i tr h1 h2
    refine ⟨h1, tr, h2, ?_⟩
    intro x hx
    exact restorable_of_check (List.all_eq_true.mp h x hx)
  · simp at h

/-- Marker, archive header and a file `x` of five bytes: a part with these flags, file CRC and
packed data. -/
def exHead (flags : UInt8) (crc packed : Bytes) : Bytes :=
  [0x52, 0x61, 0x72, 0x21, 0x1A, 0x07, 0x00] ++ [0, 0, 0x73, 0, 0, 13, 0, 0, 0, 0, 0, 0, 0] ++
    ([0, 0, 0x74, flags, 0x80, 33, 0, UInt8.ofNat packed.length, 0, 0, 0, 5, 0, 0, 0, 0] ++ crc ++
      [0, 0, 0, 0, 20, 0x30, 1, 0, 0, 0, 0, 0, 0x78] ++ packed)

/-- A recovery record header for one parity and one protected sector. -/
def exRecovery : Bytes :=
  [0, 0, 0x7A, 0, 0x80, 54, 0, 2, 2, 0, 0, 2, 2, 0, 0, 0, 0, 0, 0, 0, 0, 0, 0, 0, 20, 0x30, 2, 0, 0, 0, 0, 0, 0x52, 0x52] ++
    [0x50, 0x72, 0x6F, 0x74, 0x65, 0x63, 0x74, 0x2B, 1, 0, 0, 0, 1, 0, 0, 0, 0, 0, 0, 0]

/-- The first volume: the first two bytes of the file, a recovery record, the archive end and
four bytes behind it. -/
def exVol1 : Bytes :=
  let h := exHead 2 [0x92, 0x42, 0xCC, 0xB6] [1, 2]
  h ++ (exRecovery ++ recoveryData h 1 1) ++ [0, 0, 0x7B, 0, 0, 7, 0] ++ [9, 9, 9, 9]

/-- The second volume: the other three bytes. -/
def exVol2 : Bytes := exHead 1 [0xF4, 0x99, 0x0B, 0x47] [3, 4, 5] ++ [0, 0, 0x7B, 0, 0, 7, 0]

/-- The disk on which the SRR is created. -/
def exDisk (p : Path) : Option Bytes :=
  if p = str "/in/a.rar" then some exVol1 else if p = str "/in/a.r00" then some exVol2
  else if p = str "/in/a.nfo" then some [7, 7, 7] else none

/-- The volumes. -/
def exVols : List (RarIn × Bytes) :=
  [(⟨str "/in/a.rar", str "/in/a.rar", str "cd1/a.rar"⟩, exVol1), (⟨str "/in/a.r00", str "/in/a.r00", str "cd1/a.r00"⟩, exVol2)]

/-- The created SRR. -/
def exCreated : Res Bytes :=
  createSrr exDig id 5 exDisk (str "app") [(str "a.nfo", str "/in/a.nfo")] (exVols.map (·.1)) false false

/-- The arguments for reconstruction. -/
def exArgs : RecArgs where
  srr := str "/r/a.srr"
  inFolder := str "/r"
  outFolder := str "/o"
  extractPaths := true
  hints := []
  skipCrc := false
  autoLocate := false
  empty := false
  extractFiles := true
  part := []
  ask := fun _ => false
  abspath := id
  walk := fun _ => []
  compress := fun _ _ => .error .rarNotSupported

/-- The disk on which the volumes are reconstructed. -/
def exDisk1 (srr : Bytes) (p : Path) : Option Bytes :=
  if p = str "/r/a.srr" then some srr else if p = str "/r/x" then some [1, 2, 3, 4, 5] else none
set_option maxRecDepth 100000

theorem exVol1_good : GoodVolume exVol1 := good_of_check (by decide +kernel)
theorem exVol2_good : GoodVolume exVol2 := good_of_check (by decide +kernel)

/-- The parts of the file in the volumes. -/
theorem exParts : ∃ f g, f.name = str "x" ∧ g.name = str "x" ∧ f.unpackedSize = 5 ∧ f.method = 0x30 ∧
    (exVols.flatMap fun v => volumeParts v.2) = [⟨0x8002, f, [1, 2]⟩, ⟨0x8001, g, [3, 4, 5]⟩] := by
  refine ⟨⟨2, 5, 0, 0xB6CC4292, 0, 20, 0x30, 0, str "x", [0x78], none, none⟩,
    ⟨3, 5, 0, 0x470B99F4, 0, 20, 0x30, 0, str "x", [0x78], none, none⟩, rfl, rfl, rfl, rfl, ?_⟩
  decide +kernel

/-- The hypotheses of `create_reconstruct` hold for the set: both volumes come back. -/
theorem exRebuilt : ∃ srr fs2 reports, exCreated = .ok srr ∧ reconstruct exArgs (exDisk1 srr) = .ok (fs2, reports, true) ∧
    fs2 (str "/o/cd1/a.rar") = some exVol1 ∧ fs2 (str "/o/cd1/a.r00") = some exVol2 := by
  have hok : exCreated.isOk = true := by decide +kernel
  cases hc : exCreated with
  | error e => rw [hc] at hok; simp [Except.isOk, Except.toBool] at hok
  | ok srr =>
    obtain ⟨f, g, n1, n2, n3, n4, hp⟩ := exParts
    obtain ⟨fs2, reports, h1, h2, _⟩ := create_reconstruct (a := exArgs) (fs1 := exDisk1 srr) (ext := [str "/o/a.nfo"])
      (out := fun v => str "/o/" ++ v.1.name) hc
      (by
        intro v hv
        simp only [exVols, List.mem_cons, List.not_mem_nil, or_false] at hv
        rcases hv with rfl | rfl
        · exact ⟨by decide +kernel, exVol1_good⟩
        · exact ⟨by decide +kernel, exVol2_good⟩)
      (by simp [exVols]) (by simp [exDisk1, exArgs]) rfl
      (by
        intro _ x hx
        simp only [List.mem_singleton] at hx
        subst hx
        exact ⟨str "/o/a.nfo", by simp, by decide +kernel, by decide +kernel⟩)
      (by
        intro v hv
        simp only [exVols, List.mem_cons, List.not_mem_nil, or_false] at hv
        rcases hv with rfl | rfl
        · exact ⟨by decide +kernel, Or.inl ⟨by
          unfold exDisk1
          rw [if_neg (by decide +kernel), if_neg (by decide +kernel)], by decide +kernel⟩⟩
        · exact ⟨by decide +kernel, Or.inl ⟨by
          unfold exDisk1
          rw [if_neg (by decide +kernel), if_neg (by decide +kernel)], by decide +kernel⟩⟩)
      (by decide +kernel)
      (by
        rw [hp]
        refine Packs.starts (rest := [3, 4, 5]) (by simp) ?_ ?_
        · unfold SourceIs
          rw [if_neg (by dsimp only; decide)]
          refine ⟨str "x", [1, 2, 3, 4, 5], Or.inr ⟨rfl, by dsimp only; rw [n1]; decide +kernel⟩, by decide +kernel, ?_, Or.inl n3.symm, ?_⟩
          · unfold exDisk1
            rw [if_neg (by decide +kernel), if_pos (by decide +kernel)]
          · rw [if_pos n4]; rfl
        · dsimp only
          rw [n1, ← n2]
          exact Packs.continues (p := ⟨0x8001, g, [3, 4, 5]⟩) (rest := []) Packs.nil)
    refine ⟨srr, fs2, reports, rfl, h1, ?_, ?_⟩
    · exact h2 (⟨str "/in/a.rar", str "/in/a.rar", str "cd1/a.rar"⟩, exVol1) (by simp [exVols])
    · exact h2 (⟨str "/in/a.r00", str "/in/a.r00", str "cd1/a.r00"⟩, exVol2) (by simp [exVols])

end Rescene.Props
