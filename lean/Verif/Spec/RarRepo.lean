import Verif.Model.RarRepo
/-
C94: names of RAR archives and executables.
-/
namespace Rescene.Spec
open Rescene

/-- What is assumed about Python's decimal digits: on ASCII they are 0 to 9, and their values are below ten. -/
def DigitValues (dv : Nat → Option Nat) : Prop :=
  (∀ d, d < 10 → dv (0x30 + d) = some d) ∧ (∀ c, c < 128 → ¬ (0x30 ≤ c ∧ c ≤ 0x39) → dv c = none) ∧ ∀ c v, dv c = some v → v < 10

/-- A version: 5.21 beta 1 is `⟨5, 2, some 1, some 1⟩`; 3.8 has no second digit after the dot. -/
structure Version where
  large : Nat
  tens : Nat
  ones : Option Nat
  beta : Option Nat

/-- All are single digits. -/
def Version.Ok (v : Version) : Prop :=
  v.large < 10 ∧ v.tens < 10 ∧ (∀ d, v.ones = some d → d < 10) ∧ ∀ d, v.beta = some d → d < 10

/-- The number after the dot. -/
def Version.small (v : Version) : Nat := 10 * v.tens + v.ones.getD 0

/-- One digit. -/
def digit (d : Nat) : Str := [0x30 + d]

/-- `b1`, or nothing. -/
def Version.betaText (v : Version) : Str := match v.beta with | some k => str "b" ++ digit k | none => []

/-- The version without dots, as in `wrar521b1.exe`. -/
def Version.plain (v : Version) : Str :=
  digit v.large ++ digit v.tens ++ (match v.ones with | some d => digit d | none => []) ++ v.betaText

/-- The version with dots, as in `rarlinux-5.2.1.b1.tar.gz`; there need not be one before the beta. -/
def Version.dotted (v : Version) (betaDot : Bool) : Str :=
  digit v.large ++ str "." ++ digit v.tens ++ (match v.ones with | some d => str "." ++ digit d | none => []) ++
    (if v.beta.isSome && betaDot then str "." else []) ++ v.betaText

/-- What was read out of a name is this version. -/
def TagIs (t : RarTag) (v : Version) (x64 : Bool) : Prop :=
  t.large = v.large ∧ t.small = v.small ∧ t.beta.getD [] = v.betaText ∧ t.beta.isSome = v.beta.isSome ∧ t.x64 = x64

/-- A date as text: four, two and two digits. -/
def DateText (date : Str) (y m d : Nat) : Prop :=
  y < 10000 ∧ m < 100 ∧ d < 100 ∧
  date = digit (y / 1000) ++ digit (y / 100 % 10) ++ digit (y / 10 % 10) ++ digit (y % 10) ++ str "-" ++ digit (m / 10) ++ digit (m % 10) ++
    str "-" ++ digit (d / 10) ++ digit (d % 10)

/-- The name of an executable in the repository begins with this: date, `_rar`, and three digits of the version. -/
def ExeStart (date : Str) (large small : Nat) : Str := date ++ str "_rar" ++ digit large ++ digit (small / 10) ++ digit (small % 10)

/-- `a` is not later than `b`. -/
def NotLater (a b : RarExe) : Prop := strLe a.date b.date = true

/-- The dates in an archive can be dates: from 1980 to 2107 in a RAR archive, and the date of a tar archive has the form year-month-day. -/
def DatesOk (a : RarSource) : Prop :=
  (∀ n y m d, some (n, y, m, d) ∈ a.blocks.1 → 1980 ≤ y ∧ y ≤ 2107 ∧ m < 16 ∧ d < 32) ∧
  ∀ date b, a.tar = some (some (date, b)) → ∃ y m d, DateText date y m d

/-- An archive that is used: its name has a version from 2.0 on, no beta unless they were asked for, and one of three extensions in it. -/
def Used (dv : Nat → Option Nat) (beta : Bool) (a : RarSource) (t : RarTag) : Prop :=
  versionTag dv a.name = some t ∧ 2 ≤ t.large ∧ (t.beta = none ∨ beta = true) ∧
  (str ".exe" <:+: a.name ∨ str ".tar.gz" <:+: a.name ∨ str ".sfx" <:+: a.name)

/-- The date of the executable in the archive: of the first member with one of its names in a self-extracting archive, of `rar/rar` in another one. -/
def DateIs (a : RarSource) (date : Str) : Prop :=
  (str ".exe" <:+ a.name ∨ str ".sfx" <:+ a.name) ∧
    (∃ pre n y m d post, a.blocks.1 = pre ++ some (n, y, m, d) :: post ∧ n ∈ rarMembers ∧
      (∀ n' y' m' d', some (n', y', m', d') ∈ pre → n' ∉ rarMembers) ∧ DateText date y m d) ∨
  ¬ (str ".exe" <:+ a.name ∨ str ".sfx" <:+ a.name) ∧ ∃ b, a.tar = some (some (date, b))

/-- The executable in the archive, when it can be extracted. -/
def Holds (a : RarSource) (b : Bytes) : Prop :=
  (∃ date, a.tar = some (some (date, b))) ∨ a.tar = none ∧ (a.code = 0 ∨ a.code = 1) ∧ b = a.unpacked

/-- The name in the repository: date, version, and `.exe` for Windows. -/
def StoredAs (a : RarSource) (t : RarTag) (date name : Str) : Prop :=
  (a.tar ≠ none ∨ str ".sfx" <:+: a.name) ∧ name = ExeStart date t.large t.small ++ t.beta.getD [] ∨
  (a.tar = none ∧ ¬ str ".sfx" <:+: a.name) ∧ name = ExeStart date t.large t.small ++ t.beta.getD [] ++ str ".exe"

/-- The archive puts these bytes at this path. -/
def Puts (dv : Nat → Option Nat) (beta : Bool) (dest : Path) (a : RarSource) (q : Path) (b : Bytes) : Prop :=
  ∃ t date name, Used dv beta a t ∧ DateIs a date ∧ Holds a b ∧ StoredAs a t date name ∧ q = dest ++ str "/" ++ name

/-- The names under which executables are extracted before they are renamed. -/
def tempNames : List Str := [str "Rar.exe", str "Rar.Exe", str "rar", str "rar/rar"]

end Rescene.Spec
