import Verif.Spec.SalvagedSrr
import Verif.Props.DamagedVolumes
import Verif.Props.MadeSrrExample
/-
C116: SRR files of damaged volumes that are edited and merged.
-/
namespace Rescene.Props
open Rescene Rescene.Spec

/-- The disk with the volumes as they were and the other files of `fs`. -/
def repaired (fs : FS) (vols : List (RarIn × Bytes)) : FS := fun p => if p ∈ vols.map fun v => v.1.exact then undamaged vols p else fs p

theorem storeAll_same {fs fs' : FS} : ∀ (stored : List (Str × Path)), (∀ x ∈ stored, fs' x.2 = fs x.2) → storeAll fs' stored = storeAll fs stored := by
  intro stored
  induction stored with
  | nil => intro _; rfl
  | cons x t ih =>
    intro h
    obtain ⟨n, p⟩ := x
    rw [storeAll, storeAll, h (n, p) (by simp), ih fun y hy => h y (List.mem_cons_of_mem _ hy)]

theorem filesOf_same {fs fs' : FS} (stored : List (Str × Path)) (h : ∀ x ∈ stored, fs' x.2 = fs x.2) : filesOf fs' stored = filesOf fs stored := by
  unfold filesOf
  induction stored with
  | nil => rfl
  | cons x t ih => rw [List.filterMap_cons, List.filterMap_cons, h x (by simp), ih fun y hy => h y (List.mem_cons_of_mem _ hy)]

/-- C116: an SRR of damaged volumes is the SRR of the undamaged ones: whatever is true of the results of histories that start with good
volumes (`MadeSrr`) is true of histories that start with damaged ones. -/
theorem salvaged_made {k : Kept} {srr : Bytes} (h : SalvagedSrr k srr) : MadeSrr false k srr := by
  induction h with
  | @create dig lower fuel fs app stored vols compressed srr h hv hpaths hother =>
    have hst : ∀ x ∈ stored, repaired fs vols x.2 = fs x.2 := fun x hx => by unfold repaired; rw [if_neg (hother x hx)]
    have hvol : ∀ v ∈ vols, repaired fs vols v.1.exact = some v.2 := fun v hm => by
      unfold repaired
      rw [if_pos (List.mem_map_of_mem (f := fun v : RarIn × Bytes => v.1.exact) hm), undamaged_has vols hpaths v hm]
    have hind : createVolumes fs compressed [] (vols.map (·.1)) = createVolumes (repaired fs vols) compressed [] (vols.map (·.1)) := by
      refine volumes_independent (fs := repaired fs vols) (fs' := fs) _ [] ?_
      intro r hr
      obtain ⟨v, hm, rfl⟩ := List.mem_map.mp hr
      obtain ⟨hg, d, hd, hs⟩ := hv v hm
      exact ⟨v.2, d, hvol v hm, hd, hg.1, hs⟩
    have hc : createSrr dig lower fuel (repaired fs vols) app stored (vols.map (·.1)) compressed false = .ok srr := by
      rw [← h]
      unfold createSrr
      rw [storeAll_same stored hst, hind]
      rfl
    rw [← filesOf_same stored hst]
    exact MadeSrr.create (fun _ => rfl) hc fun v hm => ⟨hvol v hm, (hv v hm).1⟩
  | edit _ hs he hn ih => exact MadeSrr.edit ih hs he hn
  | merge _ hm ih => exact MadeSrr.merge ih hm

/-- C116: SRR files of damaged volumes, edited and merged in any way, give all volumes back as they were before they were damaged. -/
theorem salvaged_rebuilt {k : Kept} {srr : Bytes} (h : SalvagedSrr k srr) (hne : k.vols ≠ [])
    {a : RecArgs} {fs : FS} (hsrr : fs a.srr = some srr) (hpart : a.part = []) {ext : List Path}
    (hext : a.extractFiles = true → ∀ x ∈ k.files, ∃ p ∈ ext, opath x.1 a.extractPaths a.outFolder = .ok p ∧ p ≠ a.srr)
    {out : RarIn × Bytes → Path}
    (hout : ∀ v ∈ k.vols, opath v.1.name a.extractPaths a.outFolder = .ok (out v) ∧
      (fs (out v) = none ∧ out v ∉ ext ∨ a.ask (out v) = true))
    (hdiff : (k.vols.map out).Nodup)
    (hsrc : Packs (SourceIs a fs (k.vols.map out ++ ext)) none (k.vols.flatMap fun v => volumeParts v.2)) :
    ∃ fs2 reports, reconstruct a fs = .ok (fs2, reports, true) ∧ (∀ v ∈ k.vols, fs2 (out v) = some v.2) ∧
      ∀ q, q ∉ k.vols.map out → q ∉ ext → fs2 q = fs q := by
  obtain ⟨fs2, reports, h1, h2, h3, _⟩ := history_reconstruct (salvaged_made h) hne hsrr hpart hext hout hdiff hsrc
  exact ⟨fs2, reports, h1, h2, h3⟩

/-- C116: two SRR files with the same history but for the damage are the same. -/
theorem salvaged_same {k : Kept} {srr srr' : Bytes} (h : SalvagedSrr k srr) (h' : MadeSrr false k srr') : srr = srr' :=
  history_unique (salvaged_made h) h'

/-- The disk of the example of C113 with damage in the first volume. -/
def exBadDisk : FS := FS.set exDisk (str "/in/a.rar") (some exBadData)

set_option maxRecDepth 100000

/-- The SRR of the damaged first volume, merged with that of the second one. -/
theorem exSalvaged : ∃ k srr, SalvagedSrr k srr ∧ k.vols = [exPartV1, exPartV2] ∧ exBadDisk exPartV1.1.exact ≠ some exPartV1.2 := by
  have hA : createSrr exDig id 5 exBadDisk (str "app") [(str "a.nfo", str "/in/a.nfo")] ([exPartV1].map (·.1)) true false = .ok exPartA := by decide +kernel
  have hB : createSrr exDig id 5 exDisk (str "B") [] ([exPartV2].map (·.1)) false false = .ok exPartB := by decide +kernel
  have hg := exVols_good exPartV2 (by simp [exVols, exPartV2])
  have mA := SalvagedSrr.create hA (fun v hv => by
    simp only [List.mem_singleton] at hv
    subst hv
    exact ⟨exVol1_good, exBadData, by decide +kernel,
      same_of_two exVol1 54 112 77 77 (packed_of_check (by decide +kernel)) (packed_of_check (by decide +kernel))⟩) (by decide +kernel) (by decide +kernel)
  have mB := SalvagedSrr.create hB (fun v hv => by
    simp only [List.mem_singleton] at hv
    subst hv
    exact ⟨hg.2, exPartV2.2, hg.1, rfl, fun k hk => absurd rfl hk⟩) (by decide +kernel) (by decide +kernel)
  have hok : (mergeSrrs [exPartA, exPartB] none).isOk = true := by decide +kernel
  cases hm : mergeSrrs [exPartA, exPartB] none with
  | error e => rw [hm] at hok; simp [Except.isOk, Except.toBool] at hok
  | ok new =>
    have mM := SalvagedSrr.merge (inputs := [(_, exPartA), (_, exPartB)])
      (by
        intro i hi
        simp only [List.mem_cons, List.not_mem_nil, or_false] at hi
        rcases hi with rfl | rfl
        · exact mA
        · exact mB) hm
    exact ⟨_, _, mM, rfl, by decide +kernel⟩

end Rescene.Props
