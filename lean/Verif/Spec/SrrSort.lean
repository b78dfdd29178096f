import Verif.Model.SrrSort
/-
C93: what the options of srr_sort.py mean.
-/
namespace Rescene.Spec
open Rescene

/-- A file of this name is stored in the SRR. -/
def HasStored (bs : List Block) (name : Str) : Prop := ∃ b ∈ bs, b.btype = 0x6A ∧ ∃ size, b.kind = .stored size name

/-- The SRR has a volume of this name. -/
def HasVolume (bs : List Block) (name : Str) : Prop := ∃ b ∈ bs, b.btype = 0x71 ∧ b.kind = .rarFile name

/-- The volumes hold (a part of) this file. -/
def HasFile (bs : List Block) (f : FileFields) : Prop := ∃ b ∈ bs, b.btype = 0x74 ∧ b.kind = .packed f

/-- The names of the stored files, in order. -/
def storedNames (bs : List Block) : List Str :=
  bs.filterMap fun b => match b.kind with | .stored _ n => if b.btype = 0x6A then some n else none | _ => none

/-- The blocks of these three types have what blocks of these types have (a block of 7 bytes has not). -/
def Usable (bs : List Block) : Prop := ∀ b ∈ bs,
  (b.btype = 0x6A → ∃ s n, b.kind = .stored s n) ∧ (b.btype = 0x71 → ∃ n, b.kind = .rarFile n) ∧
  (b.btype = 0x74 → ∃ f, b.kind = .packed f)

/-- The name of the SRR file has a group of small letters or none, or is in small letters.  The group is what follows the last dash of the
path without the extension. -/
def LowerGroup (lower : Str → Str) (p : Path) : Prop :=
  lower (basename p) = basename p ∨
  ∃ group, 0x2D ∉ group ∧ (p.take (p.length - 4) = group ∨ ∃ before, p.take (p.length - 4) = before ++ 0x2D :: group) ∧
    (lower group = group ∨ 0x2E ∈ group)

/-- Something that was asked for with an option is the case.  (The options for images and for two NFO files are left out.) -/
def Wanted (lower : Str → Str) (o : SortOpts) (p : Path) (bs : List Block) : Prop :=
  (o.lowercase = true ∧ LowerGroup lower p) ∨
  (o.compressed = true ∧ ∃ f, HasFile bs f ∧ f.method ≠ 0x30) ∨
  (o.empty = true ∧ ∀ f, ¬ HasFile bs f) ∨
  (o.repack = true ∧ ∃ n, HasVolume bs n ∧ ∃ k ∈ ["rpk", "repack", "-r.part01.rar", "-r.rar"], str k <:+: n) ∨
  (o.duplicates = true ∧ ∃ n l1 l2 l3, storedNames bs = l1 ++ n :: l2 ++ n :: l3) ∨
  (o.peer2peer = true ∧ ∃ n, HasVolume bs n ∧ n ≠ lower n) ∨
  (o.nofiles = true ∧ ∀ n, ¬ HasStored bs n) ∨
  (o.nosfv = true ∧ ∀ n, HasStored bs n → ¬ str ".sfv" <:+ lower n) ∨
  (o.nonfo = true ∧ ∀ n, HasStored bs n → ¬ str ".nfo" <:+ lower n) ∨
  (o.txt = true ∧ ∃ n, HasStored bs n ∧ str ".txt" <:+ lower n)

end Rescene.Spec
