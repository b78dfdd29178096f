import Verif.Spec.MovCompact
import Verif.Props.MovExample
import Verif.Lemmas.MovTables
/-
C40: MP4 files with compact tables of sample sizes.
-/
namespace Rescene.Props
open Rescene Rescene.Spec

/-- C40: a compact table of sizes is not read as one: every sample gets the number of bits of a size as its size, whatever the
sizes are. -/
theorem compact_sizes_wrong {data : Bytes} {bits : Nat} {sizes : List Nat} (h : CompactTable data bits sizes) (t : MovTables) :
    movTable (some t) stz2Type data = .ok (some { t with sizes := t.sizes ++ List.replicate sizes.length bits }) := by
  obtain ⟨hl, _, v, b, hv, e, hb⟩ := h
  have hbits : ([0, 0, 0, UInt8.ofNat bits] : Bytes) = be 4 bits := by
    rcases hb with rfl | rfl | rfl <;> decide
  rw [hbits] at e
  generalize (if bits = 4 then halves sizes else numbers (bits / 8) sizes) ++ b = tail at e
  have hlt : bits < 256 ^ 4 := by omega
  have hu : unpackBeAt 4 data 4 = .ok bits := by rw [e]; exact unpackBeAt_append v _ hv hlt
  have hu2 : unpackBeAt 4 data 8 = .ok sizes.length := by
    rw [e, show v ++ (be 4 bits ++ (be 4 sizes.length ++ tail)) = (v ++ be 4 bits) ++ (be 4 sizes.length ++ tail) by simp]
    exact unpackBeAt_append _ _ (by simp [hv]) (by omega)
  unfold movTable
  rw [if_neg (by decide), if_neg (by decide), if_pos (by decide), hu, ok_bind, hu2, ok_bind, if_neg (by omega)]
  rfl

/-- A "trak" with one chunk of two samples and a compact table of their sizes, of 8 bits each. -/
def compactTrak (sizes : List Nat) : List MovPart :=
  nest aTrak (.leaf .narrow tkhdType (head0 1) :: nest aMdia (nest aMinf (nest aStbl
    [.leaf .narrow stz2Type ([0, 0, 0, 0] ++ ([0, 0, 0, 8] ++ (be 4 sizes.length ++ (numbers 1 sizes ++ [])))),
     .leaf .narrow stscType ([0, 0, 0, 0] ++ (be 4 1 ++ (be 4 1 ++ (be 4 sizes.length ++ be 4 1)))),
     .leaf .narrow stcoType ([0, 0, 0, 0] ++ (be 4 1 ++ numbers 4 [8]))])))

/-- The sample with these sizes in a compact table, and in a table of the usual kind. -/
def compactMp4 (sizes : List Nat) : Bytes := topBytes [.box .narrow mdatType (List.replicate sizes.sum 5), .tree .narrow aMoov (compactTrak sizes)]
@[inherit_doc compactMp4] def usualMp4 (sizes : List Nat) : Bytes :=
  topBytes [.box .narrow mdatType (List.replicate sizes.sum 5), .tree .narrow aMoov (trakOf (head0 1) [8] [(1, sizes.length, 1)] sizes)]

set_option maxRecDepth 100000 in
/-- C40: a sample with such a table is refused, though nothing is wrong with it: the same sample with a table of the usual kind is
accepted. -/
theorem mp4_compact_refused : CompactTable ([0, 0, 0, 0] ++ ([0, 0, 0, 8] ++ (be 4 2 ++ (numbers 1 [3, 2] ++ [])))) 8 [3, 2] ∧
    (∃ e, srsMp4Create [97] [98] (compactMp4 [3, 2]) false none = .error e) ∧
    ∃ srs, srsMp4Create [97] [98] (usualMp4 [3, 2]) false none = .ok srs := by
  refine ⟨⟨by decide, by decide, [0, 0, 0, 0], [], rfl, by decide, by decide⟩, ?_, ?_⟩
  · have h : (match srsMp4Create [97] [98] (compactMp4 [3, 2]) false none with | .ok _ => false | .error _ => true) = true := by decide +kernel
    split at h
    · cases h
    · exact ⟨_, by assumption⟩
  · have h : (match srsMp4Create [97] [98] (usualMp4 [3, 2]) false none with | .ok _ => true | .error _ => false) = true := by decide +kernel
    split at h
    · exact ⟨_, by assumption⟩
    · cases h

example : movTable (some {}) stz2Type ([0, 0, 0, 0] ++ ([0, 0, 0, 4] ++ (be 4 3 ++ (halves [3, 2, 9] ++ [])))) =
    .ok (some { sizes := [4, 4, 4] }) :=
  compact_sizes_wrong (bits := 4) (sizes := [3, 2, 9]) ⟨by decide, by decide, [0, 0, 0, 0], [], rfl, by decide, by decide⟩ {}

end Rescene.Props
