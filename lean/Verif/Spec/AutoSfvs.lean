import Verif.Model.AutoSfvs
import Verif.Spec.Release
/-
SFV files of subtitles, proofs and fixes in a release.
-/
namespace Rescene.Spec
open Rescene

/-- One of the words is in the text. -/
def Says (words : List String) (s : Str) : Prop := ∃ w ∈ words, str w <:+: s

/-- Names of music files (`00-`) and of one of several disks (`cd1`). -/
def MusicName (dig : Nat → Bool) (s : Str) : Prop :=
  (∃ t, s = str "00-" ++ t ∨ s = str "000-" ++ t) ∨
  ∃ a w b, s = a ++ w ++ b ∧ 0x0A ∉ a ∧ (SameWord w (str "flac") ∨ ∃ k d, w = k ++ [d] ∧ SameWord k (str "cd") ∧ dig d = true)

/-- The name of an SFV file is that of subtitles, and the release is not one of subtitles. -/
def SubsName (dig : Nat → Bool) (lower : Str → Str) (rel name : Str) : Prop :=
  (Says ["vobsub", "subtitle"] (lower name) ∧ ¬ Says ["subpack", "vobsub", "subtitle", "sub.pack"] rel) ∨
  (Says ["subs"] (lower name) ∧ ¬ MusicName dig name ∧ ¬ Says ["subs", "subpack", "vobsub", "subtitle", "subfix", "sub.pack"] rel)

/-- The folder is one for subtitles, codecs or covers. -/
def PartFolder (folder : Str) : Prop := folder ∈ ["subs", "vobsubs", "vobsub", "subtitles", "sub", "czsubs", "subpack", "vobsubs-full", "vobsubs-light",
  "codec", "codecs", "cover", "covers"].map str

/-- The folder is one for a fix, and the release is none. -/
def FixFolder (rel folder : Str) : Prop := ∃ w ∈ ["subpack", "subfix", "fix"], str w <:+: folder ∧ ¬ str w <:+: rel

/-- A path that ends with `Subs`, a character or not, and a disk. -/
def SubsDisk (dig : Nat → Bool) (path : Str) : Prop :=
  ∃ a s m k d e, path = a ++ s ++ m ++ k ++ [d] ++ e ∧ 0x0A ∉ a ∧ SameWord s (str "subs") ∧ (m = [] ∨ ∃ c, m = [c] ∧ c ≠ 0x0A) ∧ SameWord k (str "cd") ∧
    dig d = true ∧ (e = [] ∨ e = [0x0A])

/-- The SFV lists one file, which is not a RAR file, is not there, or holds an image as its last file (or
cannot be read). -/
def ProofOnly (w : SfvWorld) (lower : Str → Str) (sfv : Str) : Prop := ∃ f, w.listed sfv = [f] ∧
  let rar := posixJoin2 (dirname sfv) f
  (¬ str ".rar" <:+ rar ∨ w.archive rar = none ∨ w.archive rar = some (.error .valueError) ∨
   ∃ names n, w.archive rar = some (.ok names) ∧ names.getLast? = some n ∧
     lower (n.drop (n.length - 4)) ∈ [".jpg", "jpeg", ".png", ".bmp", ".gif"].map str)

/-- The SFV file is not one of the release itself. -/
def Unwanted (w : SfvWorld) (dig : Nat → Bool) (lower : Str → Str) (rel sfv : Str) : Prop :=
  let folder := lower (basename (dirname sfv))
  SubsName dig lower rel (basename sfv) ∨ PartFolder folder ∨ ((folder = str "proof" ∨ folder = str "proofs") ∧ ProofOnly w lower sfv) ∨
  SubsDisk dig (dirname sfv) ∨ FixFolder rel folder

end Rescene.Spec
