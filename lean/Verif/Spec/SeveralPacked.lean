import Verif.Model.SeveralPacked
import Verif.Spec.Compressed
import Verif.Spec.Reconstruct
/-
Sets of several compressed files that one executable made.
-/
namespace Rescene.Spec
open Rescene

/-- The executable can be taken for the one that made the file: with some number of threads it makes of a test piece an
archive that begins like the original. -/
def Passes (w : RarWorld) (v : RarVersion) (b : PackedPart) (size : Nat) (d : Bytes) (level : Str) (nm : RarNames) : Prop :=
  ∃ c split n r, TestPiece w b size d level nm n ∧
    w.run (d.take n) v (command v level (dictParameter b.flags) false c split nm.out [nm.piece]) = .ok r ∧ Begins b.psize b.crc r

/-- This executable makes of the file `d` the packed data `packed`, with one of the numbers of threads that are tried, and with
every other for which the test succeeds. -/
structure MadeWith (w : RarWorld) (v : RarVersion) (b : PackedPart) (d packed : Bytes) (level : Str) (nm : RarNames) : Prop where
  made : ∃ c, Threads w.settings v c ∧
    ∀ n, n ≤ d.length → TestPiece w b packed.length d level nm n → ∀ r,
      w.run (d.take n) v (command v level (dictParameter b.flags) false c (if n = d.length then 0 else n * 3 / 5) nm.out [nm.piece]) = .ok r →
      Begins b.psize b.crc r
  agree : ∀ c split n split' r, TestPiece w b packed.length d level nm n →
    w.run (d.take n) v (command v level (dictParameter b.flags) false c split' nm.out [nm.piece]) = .ok r →
    Begins b.psize b.crc r →
    ∃ r', w.full v (command v level (dictParameter b.flags) false c split nm.out [nm.src]) = .ok r' ∧ r'.packed = packed

/-- A compressed file of a set: what is packed, the first part of the original, its packed data and its level of compression. -/
structure PackedFile where
  file : FileToPack
  part : FilePart
  packed : Bytes
  level : Str

/-- This executable made the file. -/
def PackedFile.MadeWith (w : RarWorld) (v : RarVersion) (y : PackedFile) : Prop :=
  Spec.MadeWith w v (partOf y.part) y.file.content y.packed y.level y.file.names

/-- The blocks of the set from the given one on are the parts of this file. -/
structure PackedFile.In (parts : List FilePart) (y : PackedFile) : Prop where
  parts : ∃ pre ps post, parts = pre ++ (y.part :: ps ++ post) ∧ pre.length = y.file.block ∧
    y.packed = (y.part :: ps).flatMap (·.data) ∧
    (∀ q ∈ y.part :: ps, q.f.name = y.part.f.name ∧ q.f.packedSize = q.data.length) ∧ ∀ q ∈ pre ++ post, q.f.name ≠ y.part.f.name
  data : y.packed ≠ []
  level : compressionParameter y.part.f.method = .ok y.level
  crc : y.part.f.fileCrc ≠ 0xFFFFFFFF
  out : y.file.names.out ≠ []

/-- The data to pack for the file with part `p` is `content`: stored files are at their place as in `SourceIs`; of a
compressed file that is in the list the unpacked file is at its place. -/
def PackedOrStored (a : RecArgs) (fs : FS) (written : List Path) (files : List PackedFile) (p : FilePart) (content : Bytes) : Prop :=
  (p.flags &&& 0xE0 = 0xE0 ∨ p.f.method = 0x30) ∧ SourceIs a fs written p content ∨
  p.flags &&& 0xE0 ≠ 0xE0 ∧ p.f.method ≠ 0x30 ∧ ∃ y ∈ files, y.part = p ∧ y.packed = content ∧
    ∃ name, (a.hints.lookup p.f.name = some name ∨ a.hints.lookup p.f.name = none ∧ osFileNameRar p.f.name = .ok name) ∧
      a.abspath (posixJoin2 a.inFolder name) ∉ written ∧
      fs (a.abspath (posixJoin2 a.inFolder name)) = some y.file.content ∧ y.file.content.length = p.f.unpackedSize

end Rescene.Spec
