import Verif.Model.Inputs
import Verif.Spec.Srr
/-
The SRR that is wanted for a release.
-/
namespace Rescene.Spec

/-- The SRR of the volumes that the SFV files `sfvs` list, with the files `files` (name, contents or why it can not be
read) stored in this order: the SRR header, the stored files, the volumes, and the OSO hashes. -/
def releaseSrr (w : World) (fuel : Nat) (fs : FS) (app : Str) (sfvs : List Path) (folder : Str) (files : List (Str × Res Bytes))
    (compressed oso : Bool) : Res Bytes := do
  let h ← mkSrrHeader app
  let rars ← collect w fs fuel sfvs
  let vols ← rars.mapM (rarInput w fs true folder)
  let es ← newEntries files
  let (v, dict) ← createVolumes fs compressed [] vols
  let o ← (if oso then osoPieces w.dig w.lower fs fuel dict else .ok [] : Res Bytes)
  return h ++ (entriesBytes es ++ (v ++ o))

end Rescene.Spec
