import Verif.Spec.MadeSrr
import Verif.Spec.Packed
/-
C116: the SRR files that creating from damaged volumes, editing and merging can give.
-/
namespace Rescene.Spec

/-- The SRR `srr` is the result of a history of creating, editing and merging like that of `MadeSrr`, without OSO hashes.  The volumes
of `k` are as they were; on disk, when the SRR files were created, there were volumes that may have been damaged in the packed data and
the recovery records. -/
inductive SalvagedSrr : Kept → Bytes → Prop
  | create {dig : Nat → Bool} {lower : Str → Str} {fuel : Nat} {fs : FS} {app : Str} {stored : List (Str × Path)} {vols : List (RarIn × Bytes)}
      {compressed : Bool} {srr : Bytes}
      (h : createSrr dig lower fuel fs app stored (vols.map (·.1)) compressed false = .ok srr)
      (hv : ∀ v ∈ vols, GoodVolume v.2 ∧ ∃ damaged, fs v.1.exact = some damaged ∧ SameButPacked v.2 damaged)
      (hpaths : (vols.map fun v => v.1.exact).Nodup) (hother : ∀ x ∈ stored, x.2 ∉ vols.map fun v => v.1.exact) :
      SalvagedSrr ⟨app, filesOf fs stored, vols⟩ srr
  | edit {k : Kept} {srr new : Bytes} {p : Path} {es : List Edit} {fs fs' : FS} (h : SalvagedSrr k srr) (hs : fs p = some srr)
      (he : EditedBy p es fs fs') (hn : fs' p = some new) : SalvagedSrr { k with files := (es.foldl Stored.edit ⟨k.files, []⟩).all } new
  | merge {inputs : List (Kept × Bytes)} {app : Option Str} {new : Bytes} (h : ∀ i ∈ inputs, SalvagedSrr i.1 i.2)
      (hm : mergeSrrs (inputs.map (·.2)) app = .ok new) :
      SalvagedSrr ⟨firstName (app.getD [] :: inputs.map (·.1.app)), inputs.flatMap (·.1.files), inputs.flatMap (·.1.vols)⟩ new

end Rescene.Spec
