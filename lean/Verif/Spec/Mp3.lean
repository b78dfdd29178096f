import Verif.Spec.Flac
import Verif.Spec.Search
/-
MP3 files: tags in front, sound data, tags behind.  Written from the descriptions of the
tag formats (id3.org; hydrogenaudio for APE), without reference to the reader.
-/
namespace Rescene.Spec

/-- The number a string of ASCII digits stands for. -/
def decimal (ds : Bytes) : Nat := ds.foldl (fun n d => 10 * n + (d.toNat - 48)) 0

/-- An ID3v1 tag: 128 bytes, the first are "TAG". -/
def IsId3v1 (t : Bytes) : Prop := t.length = 128 ∧ [0x54, 0x41, 0x47] <+: t

/-- A Lyrics3v2 tag: a body, its length in six digits, and "LYRICS200". -/
def IsLyrics2 (t : Bytes) : Prop :=
  ∃ body ds : Bytes, ds.length = 6 ∧ (∀ d ∈ ds, 48 ≤ d.toNat ∧ d.toNat ≤ 57) ∧ decimal ds = body.length ∧
    t = body ++ (ds ++ [0x4C, 0x59, 0x52, 0x49, 0x43, 0x53, 0x32, 0x30, 0x30])

/-- "LYRICSBEGIN". -/
def lyricsBegin : Bytes := [0x4C, 0x59, 0x52, 0x49, 0x43, 0x53, 0x42, 0x45, 0x47, 0x49, 0x4E]

/-- "LYRICSEND". -/
def lyricsEnd : Bytes := [0x4C, 0x59, 0x52, 0x49, 0x43, 0x53, 0x45, 0x4E, 0x44]

/-- A Lyrics3 tag `t` after the bytes `before`: from "LYRICSBEGIN" to "LYRICSEND", at most 5100
bytes.  There are 5100 bytes up to its end, and the word "LYRICSBEGIN" occurs in them for the
first time where the tag begins. -/
def IsLyrics1 (before t : Bytes) : Prop :=
  (∃ body, t = lyricsBegin ++ (body ++ lyricsEnd)) ∧ t.length ≤ 5100 ∧
    ∃ far near, before = far ++ near ∧ near.length + t.length = 5100 ∧
      FirstAt lyricsBegin (near ++ t) near.length

/-- An APE tag: items, then "APETAGEX", version and size (32 bits, little endian) and 16 more
bytes.  The size does not count the header that version 2000 has. -/
def IsApe (t : Bytes) : Prop :=
  ∃ (items rest : Bytes) (version size : Nat), version < 2 ^ 32 ∧ size < 2 ^ 32 ∧ rest.length = 16 ∧
    t = items ++ ([0x41, 0x50, 0x45, 0x54, 0x41, 0x47, 0x45, 0x58] ++ (le 4 version ++ (le 4 size ++ rest))) ∧
    t.length = size + (if version = 2000 then 32 else 0)

/-- The tags behind the sound data; each may be missing (`[]`). -/
structure Tags where
  ape : Bytes := []
  lyrics1 : Bytes := []
  lyrics2 : Bytes := []
  id3v1 : Bytes := []

def Tags.bytes (t : Tags) : Bytes := t.ape ++ (t.lyrics1 ++ (t.lyrics2 ++ t.id3v1))

/-- The bytes end like a Lyrics3v2 tag. -/
def EndsLikeLyrics2 (x : Bytes) : Prop :=
  ∃ y ds : Bytes, ds.length = 6 ∧ x = y ++ (ds ++ [0x4C, 0x59, 0x52, 0x49, 0x43, 0x53, 0x32, 0x30, 0x30])

/-- The bytes end like a Lyrics3 tag. -/
def EndsLikeLyrics1 (x : Bytes) : Prop := ∃ y, x = y ++ lyricsEnd

/-- The bytes end like an APE tag. -/
def EndsLikeApe (x : Bytes) : Prop :=
  ∃ y rest : Bytes, rest.length = 24 ∧ x = y ++ ([0x41, 0x50, 0x45, 0x54, 0x41, 0x47, 0x45, 0x58] ++ rest)

/-- The file `front ++ mid ++ tags`, at least 128 bytes: `front` are ID3v2 tags, and `mid` does
not start with another one.  Every tag behind is well-formed or missing, and when it is missing
the bytes before do not look like it. -/
structure Tagged (front : List Bytes) (mid : Bytes) (t : Tags) : Prop where
  front_ : ∀ f ∈ front, IsId3v2 f
  noId3 : ¬ [0x49, 0x44, 0x33] <+: mid
  four : 4 ≤ mid.length
  long : 128 ≤ (front.flatten ++ (mid ++ t.bytes)).length
  id3v1_ : IsId3v1 t.id3v1 ∨ (t.id3v1 = [] ∧ ¬ EndsWithTag (front.flatten ++ (mid ++ t.bytes)))
  lyrics2_ : IsLyrics2 t.lyrics2 ∨
    (t.lyrics2 = [] ∧ ¬ EndsLikeLyrics2 (front.flatten ++ (mid ++ (t.ape ++ t.lyrics1))))
  lyrics1_ : IsLyrics1 (front.flatten ++ (mid ++ t.ape)) t.lyrics1 ∨
    (t.lyrics1 = [] ∧ ¬ EndsLikeLyrics1 (front.flatten ++ (mid ++ t.ape)))
  ape_ : IsApe t.ape ∨ (t.ape = [] ∧ ¬ EndsLikeApe (front.flatten ++ mid))

/-- Sound data: it starts with the 11 set bits of an MPEG frame, or is a RIFF container. -/
def IsSound (s : Bytes) : Prop :=
  (∃ b rest, s = 0xFF :: b :: rest ∧ 0xE0 ≤ b.toNat ∧ 2 ≤ rest.length) ∨ [0x52, 0x49, 0x46, 0x46] <+: s

/-- What is taken for the sound of a file: sound data or, when there is no tag in front, any bytes
that do not start like those of an SRS. -/
def SoundIn (front : List Bytes) (s : Bytes) : Prop := IsSound s ∨ (front = [] ∧ ¬ [0x53, 0x52, 0x53] <+: s)

end Rescene.Spec
