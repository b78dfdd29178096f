import Verif.Spec.SrrTools
import Verif.Model.SrsTools
/-
What srs_size.py and srs_bad.py are to list.
-/
namespace Rescene.Spec

/-- A folder made by `mkdtemp`: its path is in normal form and is not the root. -/
def TempFolder (temp : Str) : Prop := normpath temp = temp ∧ temp ≠ [] ∧ temp.getLast? ≠ some 0x2F

/-- Where a file without folder is in a folder. -/
def within (temp b : Str) : Path := temp ++ 0x2F :: b

/-- The last element of the name of a stored file, with "\" and "/" as separators. -/
def lastElem (m : Str) : Str := basename (backToSlash m)

/-- The first stored file, in any folder, whose last element is `b` has these bytes. -/
def BaseFirst (c : List Entry) (b : Str) (d : Bytes) : Prop :=
  ∃ c1 e c2, c = c1 ++ e :: c2 ∧ (∃ m, e.isStored m ∧ lastElem m = b) ∧ e.data = d ∧
    ∀ e' ∈ c1, ∀ m, e'.isStored m → lastElem m ≠ b

/-- The file is about music. -/
def Music (dig : Nat → Bool) (lower : Str → Str) (p : Path) (d : Bytes) : Prop :=
  MediaFile.kind dig lower ⟨p, d, none⟩ = .ok .mp3 ∨ MediaFile.kind dig lower ⟨p, d, none⟩ = .ok .flac

/-- The file is an SRS about something else than music, and these are the places recorded for its tracks. -/
def Places (dig : Nat → Bool) (lower : Str → Str) (p : Path) (d : Bytes) (offs : List Int) : Prop :=
  ∃ k size, MediaFile.kind dig lower ⟨p, d, none⟩ = .ok k ∧ k ≠ .mp3 ∧ k ≠ .flac ∧ srsTold k d = .ok (size, offs)

/-- The file is an SRS about a sample of this size. -/
def SampleSize (dig : Nat → Bool) (lower : Str → Str) (p : Path) (d : Bytes) (n : Nat) : Prop :=
  ∃ k offs, MediaFile.kind dig lower ⟨p, d, none⟩ = .ok k ∧ srsTold k d = .ok (some n, offs)

/-- A text file that is named after a sample or a piece of music. -/
def TxtName (x : Str) : Prop :=
  ∃ s e, e ∈ [str ".mp3", str ".flac", str ".mkv", str ".mp4", str ".avi", str ".wmv"] ∧ x = s ++ e ++ str ".txt"

end Rescene.Spec
