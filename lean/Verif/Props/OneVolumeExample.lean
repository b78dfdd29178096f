import Verif.Props.OneVolume
import Verif.Props.ReconstructExample
/-
C109: examples, and sets of which a volume cannot be rebuilt alone.
-/
namespace Rescene.Props
open Rescene Rescene.Spec
set_option maxRecDepth 100000

/-- Marker, archive header, these blocks and the archive end. -/
def exVolOf (files : List Bytes) : Bytes :=
  [0x52, 0x61, 0x72, 0x21, 0x1A, 0x07, 0x00] ++ [0, 0, 0x73, 0, 0, 13, 0, 0, 0, 0, 0, 0, 0] ++ files.flatten ++ [0, 0, 0x7B, 0, 0, 7, 0]

/-- A part of a stored file with a name of one character. -/
def exFileOf (flags name : UInt8) (size : UInt8) (packed : Bytes) : Bytes :=
  [0, 0, 0x74, flags, 0x80, 33, 0, UInt8.ofNat packed.length, 0, 0, 0, size, 0, 0, 0, 0] ++ [0, 0, 0, 0] ++
    [0, 0, 0, 0, 20, 0x30, 1, 0, 0, 0, 0, 0, name] ++ packed

/-- The first volume has the beginning of `x`; the second one its end, and all of `y`. -/
def exTwoVols : List (RarIn × Bytes) :=
  [(⟨str "/in/a.rar", str "/in/a.rar", str "a.rar"⟩, exVolOf [exFileOf 2 0x78 3 [1, 2]]),
   (⟨str "/in/a.r00", str "/in/a.r00", str "a.r00"⟩, exVolOf [exFileOf 1 0x78 3 [3], exFileOf 0 0x79 2 [7, 8]])]

/-- Two sets of one volume. -/
def exTwoSets : List (RarIn × Bytes) :=
  [(⟨str "/in/a.rar", str "/in/a.rar", str "cd1/a.rar"⟩, exVolOf [exFileOf 0 0x78 3 [1, 2, 3]]),
   (⟨str "/in/b.rar", str "/in/b.rar", str "cd2/b.rar"⟩, exVolOf [exFileOf 0 0x79 2 [7, 8]])]

/-- One volume with a directory and a file. -/
def exDirVol : List (RarIn × Bytes) :=
  [(⟨str "/in/a.rar", str "/in/a.rar", str "a.rar"⟩, exVolOf [exFileOf 0xE0 0x64 0 [], exFileOf 0 0x78 3 [1, 2, 3]])]

/-- Creating the SRR of volumes and rebuilding what is asked for, with the right files `x` and `y`. -/
def exPartOf (vols : List (RarIn × Bytes)) (part : Str) : Res (FS × List CrcReport × Bool) := do
  let srr ← createSrr exDig id 5 (fun p => (vols.find? (·.1.exact = p)).map (·.2)) (str "app") [] (vols.map (·.1)) false false
  reconstruct { exArgs with part := part, skipCrc := true } fun p =>
    if p = str "/r/a.srr" then some srr else if p = str "/r/x" then some [1, 2, 3] else if p = str "/r/y" then some [7, 8] else none

/-- The volume in the result. -/
def exResult (r : Res (FS × List CrcReport × Bool)) (p : Path) : Res (Option Bytes) := r.map fun x => x.1 p

/-- The sets are rebuilt right as a whole, and the volumes can be rebuilt. -/
example : exResult (exPartOf exTwoVols []) (str "/o/a.r00") = .ok (some (exVolOf [exFileOf 1 0x78 3 [3], exFileOf 0 0x79 2 [7, 8]])) ∧
    exResult (exPartOf exTwoSets []) (str "/o/cd2/b.rar") = .ok (some (exVolOf [exFileOf 0 0x79 2 [7, 8]])) ∧
    exResult (exPartOf exDirVol []) (str "/o/a.rar") = .ok (some (exVolOf [exFileOf 0xE0 0x64 0 [], exFileOf 0 0x78 3 [1, 2, 3]])) ∧
    (exTwoVols ++ exTwoSets ++ exDirVol).all (fun v => goodVolumeB v.2) = true := by
  refine ⟨?_, ?_, ?_, ?_⟩ <;> decide +kernel

/-- C109, violation: a volume that ends one file and has another one behind it is rebuilt wrong when it is asked for alone: the
place in the first file is used for the second one, too. -/
theorem second_file_wrong : exResult (exPartOf exTwoVols (str "a.r00")) (str "/o/a.r00") =
    .ok (some (exVolOf [exFileOf 1 0x78 3 [3], exFileOf 0 0x79 2 [0, 0]])) := by decide +kernel

/-- C109, violation: the first volume of a second set is rebuilt wrong when it is asked for alone: the size of the last file in
the set before is used as the place in its file. -/
theorem second_set_wrong : exResult (exPartOf exTwoSets (str "b.rar")) (str "/o/cd2/b.rar") =
    .ok (some (exVolOf [exFileOf 0 0x79 2 [0, 0]])) := by decide +kernel

/-- The same volume comes back when the set is asked for: the hypotheses of `subset_partial` hold. -/
example : exResult (exPartOf exTwoSets (str "cd2/*")) (str "/o/cd2/b.rar") = .ok (some (exVolOf [exFileOf 0 0x79 2 [7, 8]])) ∧
    exResult (exPartOf exTwoSets (str "cd2/*")) (str "/o/cd1/a.rar") = .ok none ∧
    AskedSubset (str "cd2/*") (str "cd2/b.rar") ∧ NotAsked (str "cd2/*") (str "cd1/a.rar") ∧
    (∀ p ∈ (volumeParts (exVolOf [exFileOf 0 0x78 3 [1, 2, 3]])).getLast?, ∀ q ∈ (volumeParts (exVolOf [exFileOf 0 0x79 2 [7, 8]])).head?,
      p.f.name ≠ q.f.name) := by
  refine ⟨by decide +kernel, by decide +kernel, ⟨str "cd2/", by decide +kernel, by decide +kernel⟩,
    ⟨by decide +kernel, by decide +kernel, ?_⟩, by decide +kernel⟩
  intro pre h
  have : pre = str "cd2/" := by
    have h2 : (str "cd2/*").dropLast = pre := by rw [h, List.dropLast_concat]
    rw [← h2]; decide +kernel
  rw [this]
  decide +kernel

/-- C109, violation: a volume with a directory cannot be rebuilt alone. -/
theorem directory_alone_fails : exResult (exPartOf exDirVol (str "a.rar")) (str "/o/a.rar") = .error .indexError := by decide +kernel

/-- C109, violation: volumes that are asked for by the beginning of their names and begin in the middle of a file are not rebuilt. -/
theorem subset_middle_fails : exResult (exPartOf exTwoVols (str "a.r0*")) (str "/o/a.r00") = .error .assertError := by decide +kernel

/-- One file in three volumes. -/
def exThreeVols : List (RarIn × Bytes) :=
  [(⟨str "/in/a.part01.rar", str "/in/a.part01.rar", str "a.part01.rar"⟩, exVolOf [exFileOf 2 0x78 3 [1]]),
   (⟨str "/in/a.part10.rar", str "/in/a.part10.rar", str "a.part10.rar"⟩, exVolOf [exFileOf 3 0x78 3 [2]]),
   (⟨str "/in/a.part11.rar", str "/in/a.part11.rar", str "a.part11.rar"⟩, exVolOf [exFileOf 1 0x78 3 [3]])]

/-- C109, violation: when two volumes have the name end that is asked for, the second one is rebuilt wrong: the part of the file in
the first one is not counted. Asked for alone it is right. -/
theorem several_asked_wrong :
    exResult (exPartOf exThreeVols (str "1.rar")) (str "/o/a.part11.rar") = .ok (some (exVolOf [exFileOf 1 0x78 3 [2]])) ∧
    exResult (exPartOf exThreeVols (str "11.rar")) (str "/o/a.part11.rar") = .ok (some (exVolOf [exFileOf 1 0x78 3 [3]])) := by
  constructor <;> decide +kernel

theorem exAskedAlone : AskedAlone (str "a.r00") (str "cd1/a.r00") ∧ NotAsked (str "a.r00") (str "cd1/a.rar") := by
  have h : ∀ pre : Str, str "a.r00" ≠ pre ++ [0x2A] := by
    intro pre h
    have := congrArg List.getLast? h
    rw [List.getLast?_concat] at this
    revert this
    decide +kernel
  exact ⟨⟨by decide +kernel, by decide +kernel, fun pre hp => absurd hp (h pre)⟩, ⟨by decide +kernel, by decide +kernel, fun pre hp => absurd hp (h pre)⟩⟩

/-- The hypotheses of `one_volume_of_file` hold: the second of two volumes comes back alone. -/
theorem exAlone : ∃ srr fs2 reports, exCreated = .ok srr ∧
    reconstruct { exArgs with part := str "a.r00" } (exDisk1 srr) = .ok (fs2, reports, true) ∧ fs2 (str "/o/cd1/a.r00") = some exVol2 ∧
    fs2 (str "/o/cd1/a.rar") = none := by
  have hok : exCreated.isOk = true := by decide +kernel
  cases hc : exCreated with
  | error e => rw [hc] at hok; simp [Except.isOk, Except.toBool] at hok
  | ok srr =>
    have hp1 : volumeParts exVol1 = [⟨0x8002, ⟨2, 5, 0, 0xB6CC4292, 0, 20, 0x30, 0, str "x", [0x78], none, none⟩, [1, 2]⟩] := by decide +kernel
    have hp2 : volumeParts exVol2 = [⟨0x8001, ⟨3, 5, 0, 0x470B99F4, 0, 20, 0x30, 0, str "x", [0x78], none, none⟩, [3, 4, 5]⟩] := by decide +kernel
    obtain ⟨fs2, reports, h1, h2, h3⟩ := one_volume_of_file (a := { exArgs with part := str "a.r00" }) (fs1 := exDisk1 srr) (ext := [str "/o/a.nfo"])
      (before := [(⟨str "/in/a.rar", str "/in/a.rar", str "cd1/a.rar"⟩, exVol1)]) (after := [])
      (v := (⟨str "/in/a.r00", str "/in/a.r00", str "cd1/a.r00"⟩, exVol2)) (out := str "/o/cd1/a.r00") (name := str "x") (file := str "x")
      (d := [1, 2, 3, 4, 5]) hc
      (by
        intro v hv
        simp only [List.cons_append, List.nil_append, List.mem_cons, List.not_mem_nil, or_false] at hv
        rcases hv with rfl | rfl
        · exact ⟨by decide +kernel, exVol1_good⟩
        · exact ⟨by decide +kernel, exVol2_good⟩)
      (by simp [exDisk1, exArgs]) exAskedAlone.1
      (by
        intro w hw
        simp only [List.append_nil, List.mem_singleton] at hw
        subst hw
        exact exAskedAlone.2)
      (by
        intro _ x hx
        simp only [List.mem_singleton] at hx
        subst hx
        exact ⟨str "/o/a.nfo", by simp, by decide +kernel, by decide +kernel⟩)
      (by decide +kernel)
      (Or.inl ⟨by
        unfold exDisk1
        rw [if_neg (by decide +kernel), if_neg (by decide +kernel)], by decide +kernel⟩)
      (by
        intro v hv
        simp only [List.cons_append, List.nil_append, List.mem_cons, List.not_mem_nil, or_false] at hv
        rcases hv with rfl | rfl
        · rw [hp1]; decide +kernel
        · rw [hp2]; decide +kernel)
      ⟨_, hp2⟩ (by simp [hp1, hp2]) (Or.inr ⟨rfl, by decide +kernel⟩)
      (by
        unfold exDisk1
        rw [if_neg (by decide +kernel), if_pos (by decide +kernel)])
      (by decide +kernel)
    refine ⟨srr, fs2, reports, rfl, h1, h2, ?_⟩
    rw [h3 _ (by decide +kernel) (by decide +kernel)]
    unfold exDisk1
    rw [if_neg (by decide +kernel), if_neg (by decide +kernel)]

end Rescene.Props
