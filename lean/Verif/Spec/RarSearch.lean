import Verif.Model.RarSearch
/-
What it means that an archive begins like the one an SRR file was made of, and which attempts a
search is made of.  Independent of how main.py searches.
-/
namespace Rescene.Spec
open Rescene

/-- The archive begins like the original one: of the packed data that the SRR file knows, `n`
bytes with this CRC, all is there and it has this CRC.  When it is exactly as long, the CRC that
stands in the first file header is taken instead. -/
def Begins (n crc : Nat) (a : Archive) : Prop :=
  (n < a.packed.length ∧ (crc32 (a.packed.take n) 0).toNat = crc) ∨
  (n = a.packed.length ∧ ((∃ size t, a.heads = (crc, size) :: t) ∨ (a.heads = [] ∧ crc = 0)))

/-- The numbers of threads to try for an executable: one attempt without the switch when it has no
such switch. -/
def Threads (s : MtSettings) (v : RarVersion) (c : Option Int) : Prop :=
  if v.setsThreads then
    ∃ n : Int, c = some n ∧
      (if s.mtMin > 0 then s.mtMin else if v.major < 4 ∨ (v.major = 4 ∧ v.minor < 20) then 0 else 1) ≤ n ∧
      (0 < s.mtMax → n ≤ s.mtMax) ∧
      n ≤ (if v.major < 4 ∨ (v.major = 4 ∧ v.minor < 20) then 16 else 32)
  else c = none

/-- The command line that makes an archive of `files`: as rar's help text orders it. -/
def command (v : RarVersion) (level dict : Str) (solid : Bool) (threads : Option Int) (split : Nat) (archive : Str)
    (files : List Str) : List Str :=
  [str "a", level, dict, if solid then str "-s" else str "-s-", str "-ds"]
  ++ (threads.toList.map fun c => str ("-mt" ++ toString c))
  ++ (if hasText (str "_rar2") v.path then [] else [str "-vn"])
  ++ (if hasText (str "_rar5") v.path || hasText (str "_rar6") v.path then [str "-ma4"] else [])
  ++ [str "-o+", str "-ep", str "-idcd"]
  ++ (if split = 0 then [] else [str ("-v" ++ toString split ++ "b")])
  ++ [archive] ++ files

end Rescene.Spec
