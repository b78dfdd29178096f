import Verif.Props.Inputs
import Verif.Props.InputNames
import Verif.Props.Reconstruct
import Verif.Lemmas.StreamSrs
/-
C69, C70: from the arguments of `create_srr` to the reconstructed volumes.
C71: the stored files.
-/
namespace Rescene.Props
open Rescene Spec

/-! ### Stored files -/

theorem mapM_pure {α β : Type} (f : α → β) (l : List α) : l.mapM (fun x => (Except.ok (f x) : Res β)) = .ok (l.map f) := by
  induction l with
  | nil => rfl
  | cons a l ih => rw [List.mapM_cons, ih]; rfl

/-- C71: without saved paths the files that are asked for and there are stored, then the SFV files of the
input, under the last elements of their paths. -/
theorem stored_exact {w : World} (hw : WorldOk w) (fs : FS) (folder : Str) (infiles store : List Path) :
    storedInput w fs false folder infiles store =
      .ok (((store ++ infiles.filter fun f => w.lower (f.drop (f.length - 4)) == str ".sfv").flatMap fun f =>
        if placeOf folder f ∈ w.all ∧ (fs (placeOf folder f)).isSome = true then [placeOf folder f] else []).map fun p => (basename p, p)) := by
  unfold storedInput
  rw [search_exact w.all hw.all]
  exact mapM_pure _ _

/-- C71: an SFV file of the input is stored when its path is absolute or no folder is given. -/
theorem sfv_is_stored {w : World} (hw : WorldOk w) {fs : FS} {folder : Str} {infiles store : List Path} {sfv : Path}
    (hm : sfv ∈ infiles) (hext : w.lower (sfv.drop (sfv.length - 4)) = str ".sfv") (hf : (fs sfv).isSome = true) (ha : sfv ∈ w.all)
    (hplace : sfv.head? = some 0x2F ∨ folder = []) :
    ∃ l, storedInput w fs false folder infiles store = .ok l ∧ (basename sfv, sfv) ∈ l := by
  have hp : placeOf folder sfv = sfv := by
    unfold placeOf
    split
    · rfl
    · rename_i h
      rcases hplace with h1 | rfl
      · exact absurd (Or.inl h1) h
      · unfold posixJoin2
        simp
  refine ⟨_, stored_exact hw fs folder infiles store, ?_⟩
  rw [List.mem_map]
  refine ⟨sfv, ?_, rfl⟩
  rw [List.mem_flatMap]
  refine ⟨sfv, ?_, by rw [hp, if_pos ⟨ha, hf⟩]; simp⟩
  rw [List.mem_append, List.mem_filter]
  exact Or.inr ⟨hm, by simp [hext]⟩

/-- C71, disagreement: the path of an SFV file is otherwise taken relative to the folder of the files to
store, though the file is read relative to the working directory.  It is left out without an error when it is
not there. -/
theorem sfv_not_stored {w : World} (hw : WorldOk w) {fs : FS} {folder : Str} {sfv : Path} (hrel : sfv.head? ≠ some 0x2F)
    (hup : ¬ str ".." <+: sfv) (hno : fs (posixJoin2 folder sfv) = none) :
    storedInput w fs false folder [sfv] [] = .ok [] := by
  have hp : placeOf folder sfv = posixJoin2 folder sfv := by
    unfold placeOf
    rw [if_neg (by simp only [not_or]; exact ⟨hrel, hup⟩)]
  rw [stored_exact hw]
  have : ∀ l : List Path, (∀ f ∈ l, f = sfv) → (l.flatMap fun f =>
      if placeOf folder f ∈ w.all ∧ (fs (placeOf folder f)).isSome = true then [placeOf folder f] else []) = [] := by
    intro l hl
    rw [List.flatMap_eq_nil_iff]
    intro f hf
    rw [hl f hf, hp, if_neg (by simp [hno])]
  rw [this _ (by
    intro f hf
    rw [List.nil_append, List.mem_filter] at hf
    simpa using hf.1)]
  rfl

/-- C71, disagreement: a file that is asked for twice, like an SFV that is both in the input and in the files to
store, is stored twice under the same name; adding it afterwards is an error (DupeFileName). -/
theorem sfv_stored_twice {w : World} (hw : WorldOk w) {fs : FS} {sfv : Path} (hext : w.lower (sfv.drop (sfv.length - 4)) = str ".sfv")
    (habs : sfv.head? = some 0x2F) (hf : (fs sfv).isSome = true) (ha : sfv ∈ w.all) (folder : Str) :
    storedInput w fs false folder [sfv] [sfv] = .ok [(basename sfv, sfv), (basename sfv, sfv)] := by
  have hp : placeOf folder sfv = sfv := by
    unfold placeOf
    rw [if_pos (Or.inl habs)]
  rw [stored_exact hw]
  simp [hext, hp, ha, hf]

/-! ### The OSO hash and capitals -/

/-- C69, disagreement: when the capitals in the SFV are not those on disk, the volume is found, but no OSO hash
is stored for its file: the hash is made from the path in the SFV. -/
theorem oso_lost_by_capitals (dig : Nat → Bool) (fs : FS) (fuel : Nat) (rar : Path) (name : Str) (h : fs rar = none) :
    osoPiece dig fs (fuel + 1) rar name = .ok [] := by
  unfold osoPiece osoHashFrom rsOpen rsGood
  simp only [if_true, ok_bind, Bool.true_eq_false, if_false]
  have : rsVolumes dig fs (some name) false (fuel + 1) rar [] 0 = .ok ([], 0) := by
    unfold rsVolumes
    simp [h]
  rw [this]
  rfl

/-! ### Volumes -/

theorem rars_found {w : World} {fs : FS} {sp : Bool} {folder : Str} {name : Path → Str} {l : List Path}
    (h : ∀ p ∈ l, Usual p ∧ OnlyCase w fs p ∧ (fs p).isSome = true ∧ srrName w sp folder p = .ok (name p)) :
    l.mapM (rarInput w fs sp folder) = .ok (l.map fun p => ⟨p, p, name p⟩) := by
  induction l with
  | nil => rfl
  | cons a l ih =>
    obtain ⟨h1, h2, h3, h4⟩ := h a (by simp)
    rw [List.mapM_cons, rar_input_found h1 h2 h3, h4, ih (fun p hp => h p (by simp [hp]))]
    rfl

/-- C69, C70: the volumes that are taken from the input come back when the SRR is reconstructed, under the
names they have in the SRR. -/
theorem create_from_reconstruct {w : World} {fuel : Nat} {fs0 : FS} {app : Str} {infiles store : List Path} {folder : Str}
    {sp compressed oso : Bool} {srr : Bytes} {rars : List Path} {data : Path → Bytes} {name : Path → Str}
    (hcreate : createFrom w fuel fs0 app infiles folder store sp compressed oso = .ok srr)
    (hrars : collect w fs0 fuel infiles = .ok rars) (hne : rars ≠ [])
    (hvols : ∀ p ∈ rars, Usual p ∧ OnlyCase w fs0 p ∧ fs0 p = some (data p) ∧ GoodVolume (data p) ∧ srrName w sp folder p = .ok (name p))
    {a : RecArgs} {fs1 : FS} (hsrr : fs1 a.srr = some srr) (hpart : a.part = []) {ext : List Path}
    (hext : a.extractFiles = true → ∀ stored, storedInput w fs0 sp folder infiles store = .ok stored →
      ∀ x ∈ stored, ∃ p ∈ ext, opath x.1 a.extractPaths a.outFolder = .ok p ∧ p ≠ a.srr)
    {out : Path → Path}
    (hout : ∀ p ∈ rars, opath (name p) a.extractPaths a.outFolder = .ok (out p) ∧
      (fs1 (out p) = none ∧ out p ∉ ext ∨ a.ask (out p) = true))
    (hdiff : (rars.map out).Nodup)
    (hsrc : Packs (SourceIs a fs1 (rars.map out ++ ext)) none (rars.flatMap fun p => volumeParts (data p))) :
    ∃ fs2 reports, reconstruct a fs1 = .ok (fs2, reports, true) ∧
      (∀ p ∈ rars, fs2 (out p) = some (data p)) ∧
      ∀ q, q ∉ rars.map out → q ∉ ext → fs2 q = fs1 q := by
  unfold createFrom at hcreate
  rw [bind_eq_ok] at hcreate
  obtain ⟨stored, hs, hcreate⟩ := hcreate
  rw [hrars, ok_bind, rars_found (name := name) (fun p hp => by
    obtain ⟨h1, h2, h3, _, h5⟩ := hvols p hp
    exact ⟨h1, h2, by rw [h3]; rfl, h5⟩), ok_bind] at hcreate
  have hmap : (rars.map fun p => (⟨p, p, name p⟩ : RarIn)) = (rars.map fun p => ((⟨p, p, name p⟩ : RarIn), data p)).map (·.1) := by
    rw [List.map_map]; rfl
  rw [hmap] at hcreate
  have hm2 : (rars.map fun p => ((⟨p, p, name p⟩ : RarIn), data p)).map (fun v => out v.1.rar) = rars.map out := by
    rw [List.map_map]; rfl
  have hm3 : ((rars.map fun p => ((⟨p, p, name p⟩ : RarIn), data p)).flatMap fun v => volumeParts v.2) =
      rars.flatMap fun p => volumeParts (data p) := by
    rw [List.flatMap_map]
  obtain ⟨fs2, reports, r1, r2, r3⟩ := create_reconstruct (out := fun v => out v.1.rar) hcreate
    (by
      intro v hv
      obtain ⟨p, hp, rfl⟩ := List.mem_map.1 hv
      exact ⟨(hvols p hp).2.2.1, (hvols p hp).2.2.2.1⟩)
    (by simpa using hne) hsrr hpart (fun he x hx => hext he stored hs x hx)
    (by
      intro v hv
      obtain ⟨p, hp, rfl⟩ := List.mem_map.1 hv
      exact hout p hp)
    (by rw [hm2]; exact hdiff) (by rw [hm2, hm3]; exact hsrc)
  rw [hm2] at r3
  exact ⟨fs2, reports, r1, fun p hp => r2 (⟨p, p, name p⟩, data p) (List.mem_map.2 ⟨p, hp, rfl⟩), r3⟩

theorem collect_one {w : World} {fs : FS} {fuel : Nat} {f : Path} {l : List Path} (h : collectOne w fs fuel f = .ok l) :
    collect w fs fuel [f] = .ok l := by
  simp [collect, h]

/-- C69: an SFV file as the only input. -/
theorem collect_sfv {w : World} (hw : WorldOk w) {fs : FS} {fuel : Nat} {base : Str} {data : Bytes}
    (h : fs (base ++ str ".sfv") = some data) :
    collect w fs fuel [base ++ str ".sfv"] = handleSfv w (base ++ str ".sfv") data := by
  obtain ⟨s', hs⟩ := hw.lower base (str ".sfv") (by decide)
  have he : endsWith (w.lower (base ++ str ".sfv")) (str ".sfv") = true := endsWith_iff.mpr ⟨s', by rw [hs]; rfl⟩
  have h1 : collectOne w fs fuel (base ++ str ".sfv") = handleSfv w (base ++ str ".sfv") data := by
    unfold collectOne
    rw [if_pos he, h]
  unfold collect
  rw [h1]
  cases handleSfv w (base ++ str ".sfv") data with
  | error e => rfl
  | ok l => simp [collect]

/-- C70: a RAR volume as the only input. -/
theorem collect_rar {w : World} {fs : FS} {fuel : Nat} {p : Path} (h : endsWith (w.lower p) (str ".sfv") = false) :
    collect w fs fuel [p] = handleRar w fs fuel p := by
  have h1 : collectOne w fs fuel p = handleRar w fs fuel p := by
    unfold collectOne
    rw [if_neg (by simp [h])]
  unfold collect
  rw [h1]
  cases handleRar w fs fuel p with
  | error e => rfl
  | ok l => simp [collect]

/-- C69, C70: several inputs: the volumes of each, one after the other. -/
theorem collect_append (w : World) (fs : FS) (fuel : Nat) (a b : List Path) :
    collect w fs fuel (a ++ b) = do
      let x ← collect w fs fuel a
      let y ← collect w fs fuel b
      return x ++ y := by
  induction a with
  | nil =>
    simp only [List.nil_append, collect, ok_bind]
    cases collect w fs fuel b <;> rfl
  | cons f a ih =>
    simp only [List.cons_append, collect, ih]
    cases collectOne w fs fuel f with
    | error e => rfl
    | ok l =>
      simp only [ok_bind]
      cases collect w fs fuel a with
      | error e => rfl
      | ok x =>
        simp only [ok_bind]
        cases collect w fs fuel b with
        | error e => rfl
        | ok y => simp [List.append_assoc]

/-- C69: a volume that is missing: nothing is created. -/
theorem create_missing_volume {w : World} {fuel : Nat} {fs : FS} {app : Str} {infiles store : List Path} {folder : Str}
    {sp compressed oso : Bool} {rars : List Path} (hrars : collect w fs fuel infiles = .ok rars) {p : Path} (hp : p ∈ rars)
    (hu : Usual p) {names : List Str} (hl : w.listdir (dirname p) = some names)
    (hno : ∀ d ∈ names, w.lower d = w.lower (basename p) → fs (posixJoin2 (dirname p) d) = none) (hf : fs p = none) :
    ∀ srr, createFrom w fuel fs app infiles folder store sp compressed oso ≠ .ok srr := by
  intro srr h
  unfold createFrom at h
  simp only [bind_eq_ok] at h
  obtain ⟨stored, _, rars', h2, vols, h3, h4⟩ := h
  clear h4
  rw [hrars] at h2
  simp only [Except.ok.injEq] at h2
  subst h2
  clear hrars
  induction rars generalizing vols with
  | nil => simp at hp
  | cons a l ih =>
    rw [mapM_ok_cons] at h3
    obtain ⟨x, xs, h4, h5, _⟩ := h3
    rcases List.mem_cons.1 hp with rfl | hp
    · rw [rar_input_missing hu names hl hno hf] at h4
      cases h4
    · exact ih hp xs h5

end Rescene.Props
