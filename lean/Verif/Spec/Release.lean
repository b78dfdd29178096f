import Verif.Model.Release
import Verif.Spec.Volumes
/-
Releases in a tree of folders.
-/
namespace Rescene.Spec
open Rescene

/-- The folder that is reached over these names. -/
def folderAt : Tree → List Str → Option Tree
  | t, [] => some t
  | t, n :: ns => ((t.dirs.toList.find? fun d => d.1 == n).map (·.2)).bind fun s => folderAt s ns

/-- Its path. -/
def pathAt (root : Str) (names : List Str) : Str := names.foldl (fun p n => p ++ 0x2F :: n) root

/-- The last part of the path. -/
def nameAt (root : Str) (names : List Str) : Str := names.getLast?.getD (basename root)

/-- Names that a file system allows: no `/`, and no two folders of the same name in a folder. -/
def NamesOk (t : Tree) : Prop := ∀ ns s, folderAt t ns = some s →
  (s.dirs.toList.map (·.1)).Nodup ∧ ∀ d ∈ s.dirs.toList, d.1 ≠ [] ∧ 0x2F ∉ d.1

/-- An absolute path other than `/`, without a slash at its end. -/
def RootOk (p : Str) : Prop := p ≠ [] ∧ p.getLast? ≠ some 0x2F ∧ 0x2F ∈ p

/-- The folder is a release and none of the folders above it is. -/
def TopRelease (rel : Str → Tree → Bool) (root : Str) (t : Tree) (names : List Str) : Prop :=
  (∃ s, folderAt t names = some s ∧ rel (nameAt root names) s = true) ∧
  ∀ k < names.length, ∀ s, folderAt t (names.take k) = some s → rel (nameAt root (names.take k)) s = false

/-- How much of the path comes before its last part. -/
def parentLength (p : Str) : Nat := (p.reverse.dropWhile (· ≠ 0x2F)).length

/-- The path of a release is in the path of a folder that is not in the release, and they are not in the
same folder. -/
def LooksInside (rel : Str → Tree → Bool) (root : Str) (t : Tree) : Prop := ∃ m s n s',
  folderAt t m = some s ∧ rel (nameAt root m) s = true ∧ folderAt t n = some s' ∧ ¬ m <+: n ∧
  pathAt root m <:+: pathAt root n ∧ parentLength (pathAt root m) ≠ parentLength (pathAt root n)

/-- Letters up to case; Python takes ſ for s, the Kelvin sign for k, and İ and ı for i. -/
def SameLetter (c x : Nat) : Prop :=
  lowerA c = x ∨ (x = 0x73 ∧ c = 0x17F) ∨ (x = 0x6B ∧ c = 0x212A) ∨ (x = 0x69 ∧ (c = 0x130 ∨ c = 0x131))

def SameWord : Str → Str → Prop
  | [], [] => True
  | c :: a, x :: b => SameLetter c x ∧ SameWord a b
  | _, _ => False

/-- The name of a folder for one of the disks: `CD1`, `Disk_02`, `DVD.3-Bonus`. -/
def DiskName (dig : Nat → Bool) (s : Str) : Prop := ∃ kind ∈ [str "cd", str "disk", str "dvd", str "disc", str "part"],
  ∃ k sep d tail, s = k ++ sep ++ d ++ tail ∧ SameWord k kind ∧ sep ∈ [[], str ".", str "_"] ∧
    (d.length = 1 ∨ d.length = 2) ∧ (∀ c ∈ d, dig c = true) ∧
    (tail = [] ∨ ∃ sep' rest, tail = sep' ++ rest ∧ sep' ∈ [[], str "_", str ".", str "-"] ∧ rest ≠ [] ∧
      ∀ c ∈ rest, rxAlnum c = true ∨ c = 0x2E ∨ c = 0x5F)

/-- The names of the other folders within a release. -/
def partNames : List Str :=
  ["vobsample", "vobsamples", "sample", "samples", "cover", "covers", "proof", "proofs", "sub", "subs", "subpack", "subspack", "vobsub", "vobsubs"].map str

/-- Names that no folder of a release itself has: those of folders in releases, and names with a space.  The
pattern also takes a line break at the end. -/
def NotReleaseName (dig : Nat → Bool) (name : Str) : Prop :=
  0x20 ∈ name ∨ ∃ w, (DiskName dig w ∨ ∃ x ∈ partNames, SameWord w x) ∧ (name = w ∨ name = w ++ [0x0A])

/-- Letters, digits and underscores only: the folders of old music releases.  The pattern also takes a line
break at the end. -/
def PlainName (name : Str) : Prop :=
  ∃ w, w ≠ [] ∧ (∀ c ∈ w, rxAlnum c = true ∨ c = 0x5F) ∧ (name = w ∨ name = w ++ [0x0A])

/-- An NFO or SFV file that is not one of the five that do not come with releases. -/
def SceneFile (lower : Str → Str) (f : Str) : Prop :=
  (lower (f.drop (f.length - 4)) = str ".nfo" ∨ lower (f.drop (f.length - 4)) = str ".sfv") ∧
  f ∉ [str "motechnetfiles.nfo", str "movie.nfo", str "scc.nfo", str "imdb.nfo", str "tvmaze.nfo"]

/-- There is an SFV file in the folder. -/
def WithSfv (lower : Str → Str) (t : Tree) : Prop := ∃ f ∈ t.listdir, str ".sfv" <:+ lower f

/-- Two to ten folders with plain names and SFV files. -/
def Album (lower : Str → Str) (t : Tree) : Prop :=
  t.dirs.toList.length ≤ 10 ∧ 2 ≤ t.dirs.toList.length ∧ ∀ d ∈ t.dirs.toList, PlainName d.1 ∧ WithSfv lower d.2

/-- The folder has only an NFO file besides folders, each folder is empty or a release, and it is no album. -/
def Pack (lower : Str → Str) (rel : Str → Tree → Bool) (t : Tree) : Prop :=
  (∃ f, t.files = [f] ∧ str ".nfo" <:+ lower f) ∧ t.dirs.toList ≠ [] ∧
  (∀ d ∈ t.dirs.toList, rel d.1 d.2 = true ∨ d.2.listdir = []) ∧ ¬ Album lower t

end Rescene.Spec
