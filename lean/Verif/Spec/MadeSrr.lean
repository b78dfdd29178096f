import Verif.Spec.History
import Verif.Spec.Reconstruct
import Verif.Model.Create
/-
C113: the SRR files that creating, editing and merging can give.
-/
namespace Rescene.Spec

/-- What an SRR is made of: application name, stored files and volumes. -/
structure Kept where
  app : Str
  files : List (Str × Bytes)
  vols : List (RarIn × Bytes)

/-- The SRR `srr`, made of `k`, is the result of any history of creating SRR files of volumes that can be rebuilt, editing them, and
merging them.  Without `oso`, no SRR was created with OSO hashes. -/
inductive MadeSrr (oso : Bool) : Kept → Bytes → Prop
  | create {dig : Nat → Bool} {lower : Str → Str} {fuel : Nat} {fs : FS} {app : Str} {stored : List (Str × Path)} {vols : List (RarIn × Bytes)}
      {compressed hashes : Bool} {srr : Bytes} (ho : oso = false → hashes = false)
      (h : createSrr dig lower fuel fs app stored (vols.map (·.1)) compressed hashes = .ok srr)
      (hv : ∀ v ∈ vols, fs v.1.exact = some v.2 ∧ GoodVolume v.2) : MadeSrr oso ⟨app, filesOf fs stored, vols⟩ srr
  | edit {k : Kept} {srr new : Bytes} {p : Path} {es : List Edit} {fs fs' : FS} (h : MadeSrr oso k srr) (hs : fs p = some srr)
      (he : EditedBy p es fs fs') (hn : fs' p = some new) : MadeSrr oso { k with files := (es.foldl Stored.edit ⟨k.files, []⟩).all } new
  | merge {inputs : List (Kept × Bytes)} {app : Option Str} {new : Bytes} (h : ∀ i ∈ inputs, MadeSrr oso i.1 i.2)
      (hm : mergeSrrs (inputs.map (·.2)) app = .ok new) :
      MadeSrr oso ⟨firstName (app.getD [] :: inputs.map (·.1.app)), inputs.flatMap (·.1.files), inputs.flatMap (·.1.vols)⟩ new

/-- The name and the bytes of a volume. -/
def volumeOf (v : RarIn × Bytes) : Str × Bytes := (v.1.name, v.2)

end Rescene.Spec
