import Verif.Model.SrsMain
/-
How `main` of /repo/resample/srs.py ends: the exit status of the command, and the exception when another program calls it
(`no_exit=True`).  With it, what `generate_srr` of /repo/bin/pyrescene.py makes of each sample, and its `main` of each release.
-/
namespace Rescene

/-- The exceptions that srs.py:634-672 tells apart. -/
inductive SrsExc where
  | matchOffset   -- InvalidMatchOffset
  | path          -- InvalidPathValue
  | value         -- ValueError, also UnicodeError and InvalidDataException
  | assertion     -- AssertionError
  | noFpcalc      -- fpcalc.ExecutableNotFound
  | attribute     -- AttributeError
  | os            -- OSError
  | type          -- TypeError
  | other         -- any other Exception
  | keyboard      -- KeyboardInterrupt
  deriving DecidableEq, Repr

/-- How the `try` block of srs.py:229-632 ends. -/
inductive SrsBody where
  | ended                                -- the end of the block
  | exits (status : Nat) (msg : Str)     -- a call of `pexit`
  | raises (c : SrsExc) (msg : Str)      -- an exception with this text
  deriving DecidableEq, Repr

/-- How `main` ends. -/
inductive MainEnd where
  | returned
  | exited (status : Nat)                -- SystemExit
  | raised (c : SrsExc) (msg : Str)
  deriving DecidableEq, Repr

/-- `str.isspace` of one character: what `lstrip` removes. -/
def pySpace (c : Nat) : Bool :=
  (9 ≤ c && c ≤ 13) || (28 ≤ c && c ≤ 32) || [0x85, 0xA0, 0x1680, 0x2028, 0x2029, 0x202F, 0x205F, 0x3000].contains c || (0x2000 ≤ c && c ≤ 0x200A)

/-- `s.rstrip(chars)` for a test of the characters. -/
def rstripBy (f : Nat → Bool) (s : Str) : Str := (s.reverse.dropWhile f).reverse

/-- srs.py:645-648 `fault`: leading spaces of each line, newlines around, dots at the end are removed. -/
def srsFault (msg : Str) : Str :=
  let s := joinWith 10 ((splitOn 10 msg).map fun l => l.dropWhile pySpace)
  let s := rstripBy (· == 46) (rstripBy (· == 10) (s.dropWhile (· == 10)))
  if s = [] then str "AssertionError" else s

/-- srs.py:204-213 `pexit`, outside of the `try` block. -/
def pexit (noExit : Bool) (status : Nat) (msg : Str) : MainEnd :=
  if noExit then if status = 0 then .returned else .raised .value msg else .exited status

/-- srs.py:634-672: the handlers.  `exit(2, msg)` in line 653 is the function `exit` of Python, which takes one argument:
TypeError. -/
def srsHandle (noExit : Bool) (c : SrsExc) (msg : Str) : MainEnd :=
  match c with
  | .matchOffset => pexit noExit 6 (str "The stored main video location is not valid. Try again on a different disk or use -m.")
  | .path => pexit noExit 8 msg
  | .value | .assertion =>
    if str "Aborting" <:+ srsFault msg then pexit noExit 2 (str "Corruption detected: " ++ srsFault msg ++ str "\n")
    else .raised .type (str "__call__() takes from 1 to 2 positional arguments but 3 were given")
  | .noFpcalc => pexit noExit 3 msg
  | .attribute =>
    if str "Compressed RARs" <+: msg then pexit noExit 4 (str "Cannot verify sample against compressed RARs.")
    else if msg = str "You must start with the first volume from a RAR set" then pexit noExit 5 msg
    else pexit noExit 99 (str "Unexpected Error:\n" ++ msg ++ str "\n")
  | .os => pexit noExit 7 msg
  | .type | .other => pexit noExit 99 (str "Unexpected Error:\n" ++ msg ++ str "\n")
  | .keyboard => .raised .keyboard msg

/-- srs.py:195-672: the end of `main`.  A `pexit` in the block is SystemExit, which no handler takes, or, for a caller, a
ValueError, which the third handler takes. -/
def mainEnd (noExit : Bool) : SrsBody → MainEnd
  | .ended => pexit noExit 0 []
  | .exits s msg =>
    if noExit then if s = 0 then .returned else srsHandle true .value msg
    else .exited s
  | .raises c msg => srsHandle noExit c msg

/-! ### Creating an SRS -/

/-- The class of an exception of the models of the formats. -/
def excOf : Err → SrsExc
  | .valueError | .unicodeError | .invalidData => .value
  | .assertError => .assertion
  | .attrError => .attribute
  | .envError => .os
  | .typeError => .type
  | .keyboard => .keyboard
  | _ => .other

/-- srs.py:250-258: a file of no known kind; `size` is the number of bytes with separators. -/
def unknownMsg (base size : Str) : Str :=
  str "Could not locate MKV, AVI, MP4, WMV, FLAC or MP3 data in file: " ++ base ++ str "\nFile size: " ++ size ++ str " bytes\n"

/-- srs.py:296-297. -/
def bigMsg : Str := str "Samples over 2GiB are not supported without the -b switch. Are you sure it's a sample?\n"

/-- srs.py:311, 328. -/
def folderMsg (folder : Str) : Str := str "Output directory does not exist: " ++ folder ++ str "\n"

/-- main.py:979, 1195, 1386, 1578; 1652, 1724 for music. -/
def incompleteMsg (k : SampleKind) : Str :=
  if k = .flac ∨ k = .mp3 then str "Error: Parsed size does not equal file size.\n       The file is likely corrupted or incomplete."
  else str "Error: Parsed size does not equal file size.\n       The sample is likely corrupted or incomplete.\n"

/-- srs.py:339-340. -/
def noTracksMsg : Str := str "No A/V data was found. The sample is likely corrupted.\n"

/-- srs.py:129. -/
def formatMsg : Str := str "Sample and -c file not the same format.\n"

/-- srs.py:148-149, with the number of the track. -/
def locateMsg (track : Str) : Str := str "\nUnable to locate track signature for track " ++ track ++ str ". Aborting.\n"

/-- The tracks that profiling a sample finds, with their signatures (srs.py:331-336). -/
def profileOf (k : SampleKind) (sample : Bytes) : Res (List (Nat × Bytes)) :=
  match k with
  | .stream => (·.2.map fun t => (t.1, t.2.sig)) <$> streamProfile sample
  | .avi => (·.2.map fun t => (t.1, t.2.sig)) <$> aviProfile sample
  | .mp4 => (·.2.map fun t => (t.1, t.2.sig)) <$> mp4Profile sample
  | .wmv => (·.2.1.map fun t => (t.1, t.2.sig)) <$> wmvProfile sample
  | .mkv => (·.2.map fun t => (t.1, t.2.sig)) <$> mkvProfile sample
  | .flac => (·.2.map fun t => (t.1, t.2.sig)) <$> flacProfile sample
  | .mp3 => (·.2.map fun t => (t.1, t.2.sig)) <$> mp3Profile sample
  | .m2ts => .error .other
  | .unknown => .error .other

/-- A call of `srs` to make an SRS: the sample and the file to check against, the output folder if it does not exist, what
`fpcalc` raises for music, the texts of other exceptions, the size and the number of a track that is not found as text. -/
structure SrsCall where
  app : Str
  path : Str
  sample : Bytes
  fp : Option (Nat × Bytes) := none
  fpFails : Option (SrsExc × Str) := none
  big : Bool := false
  noFolder : Option Str := none
  check : Option MediaFile := none
  text : Err → Str := fun _ => []
  size : Str
  track : Str := str "1"

/-- srs.py:352-365: after the profile.  Simplified: when the file to check against is of the right format, `Err.other` is that
a track is not found there; that is the only use the models of the formats make of it, besides one for an OSError of damaged FLAC
and MP3 files, which ends in a ValueError as well. -/
def srsCheckBody (dig : Nat → Bool) (lower : Str → Str) (c : SrsCall) (k : SampleKind) (check : Option MediaFile) : SrsBody :=
  let make := srsMake dig lower c.app c.path c.sample c.fp c.big c.check
  match check with
  | none =>
    match make with
    | .ok _ => .ended
    | .error e => .raises (excOf e) (c.text e)
  | some m =>
    match m.kind dig lower with
    | .error e => .raises (excOf e) (c.text e)
    | .ok mk =>
      if mk ≠ k ∧ k ≠ .stream then .exits 1 formatMsg
      else
        match make with
        | .ok _ => .ended
        | .error .other => .exits 3 (locateMsg c.track)
        | .error e => .raises (excOf e) (c.text e)

/-- srs.py:230-369: making an SRS, always with `-y`.  Simplified: the search for the fingerprint, which the profile of music ends
with, is the parameter `fpFails`. -/
def srsMakeBody (dig : Nat → Bool) (lower : Str → Str) (c : SrsCall) : SrsBody :=
  match MediaFile.kind dig lower ⟨c.path, c.sample, none⟩ with
  | .error e => .raises (excOf e) (c.text e)
  | .ok .unknown => .exits 1 (unknownMsg (basename c.path) c.size)
  | .ok k =>
    if c.sample.length ≥ 0x80000000 ∧ c.big = false then .exits 1 bigMsg
    else
      match c.noFolder with
      | some f => .exits 1 (folderMsg f)
      | none =>
        match profileOf k c.sample with
        | .error .incompleteSample => .exits 2 (incompleteMsg k)
        | .error e => .raises (excOf e) (c.text e)
        | .ok tracks =>
          match (if k = .flac ∨ k = .mp3 then c.fpFails else none) with
          | some (x, m) => .raises x m
          | none =>
            if tracks = [] then .exits 2 noTracksMsg
            else
              match vobIsRar lower c.path ((tracks.find? (·.1 == 1)).map (·.2)) with
              | .error e => .raises (excOf e) (c.text e)
              | .ok r => srsCheckBody dig lower c k (if r then none else c.check)

/-! ### pyrescene -/

/-- What becomes of a sample. -/
inductive SampleFate where
  | srs                       -- its SRS is stored
  | text                      -- a text with the reason is stored
  | nothing                   -- an empty file
  deriving DecidableEq, Repr

/-- fpcalc.py:39. -/
def msgNotFound : Str := str "The fpcalc executable isn't found."

/-- pyrescene.py:1009-1023: the main files are tried in order; whether the sample is in one of them. -/
def autoVerify : List MainEnd → Except SrsExc Bool
  | [] => .ok false
  | .returned :: _ => .ok true
  | .raised .value _ :: rest => autoVerify rest
  | .raised c _ :: _ => .error c
  | .exited _ :: _ => .error .other     -- not with no_exit

/-- pyrescene.py:984-1072: one sample.  `checked` are the ends of the calls with the main files, in order; `plain` is that of the
call without.  `verify` is `options.sample_verify` and that it is no music and no TS file. -/
def autoSample (verify : Bool) (checked : List MainEnd) (plain : MainEnd) (size : Nat) : Except SrsExc SampleFate :=
  match (if verify then autoVerify checked else .ok false) with
  | .error c => .error c
  | .ok true => .ok .srs
  | .ok false =>
    match plain with
    | .returned => .ok .srs
    | .raised .value msg =>
      if msgNotFound <:+ msg then .error .noFpcalc
      else if size > 0 then .ok .text else .ok .nothing
    | .raised c _ => .error c
    | .exited _ => .error .other

/-- A sample of a release. -/
structure AutoSample where
  verify : Bool
  checked : List SrsCall
  plain : SrsCall

/-- pyrescene.py:990-1072: the calls are made when they are needed. -/
def AutoSample.fate (dig : Nat → Bool) (lower : Str → Str) (s : AutoSample) : Except SrsExc SampleFate :=
  autoSample s.verify (s.checked.map fun c => mainEnd true (srsMakeBody dig lower c)) (mainEnd true (srsMakeBody dig lower s.plain)) s.plain.sample.length

/-- pyrescene.py:984-1072: all samples of a release. -/
def autoSamples (dig : Nat → Bool) (lower : Str → Str) : List AutoSample → Except SrsExc (List SampleFate)
  | [] => .ok []
  | s :: rest =>
    match s.fate dig lower with
    | .error c => .error c
    | .ok f =>
      match autoSamples dig lower rest with
      | .error c => .error c
      | .ok fs => .ok (f :: fs)

/-- How `generate_srr` ends for a release: the result, or an exception. -/
inductive AutoEnd where
  | made (b : Bool)
  | fileNotFound              -- rescene.main.FileNotFound
  | raised (c : SrsExc)
  deriving DecidableEq, Repr

/-- A run of pyrescene: the releases that were handled and those without SRR; how it ends. -/
structure AutoRun where
  handled : List Nat := []
  missing : List Nat := []
  aborted : Bool := false
  /-- an exception that nothing catches -/
  escaped : Option SrsExc := none
  deriving DecidableEq, Repr

/-- pyrescene.py:1716-1763: the releases in their order.  `recursive` is the option; only then FileNotFound is caught
(`generate_srr` does not pass on those of `create_srr`). -/
def autoLoop (recursive : Bool) (r : AutoRun) : List (Nat × AutoEnd) → AutoRun
  | [] => r
  | (n, e) :: rest =>
    let r := { r with handled := r.handled ++ [n] }
    match e with
    | .made true => autoLoop recursive r rest
    | .made false => autoLoop recursive { r with missing := r.missing ++ [n] } rest
    | .fileNotFound => if recursive then autoLoop recursive { r with missing := r.missing ++ [n] } rest else { r with escaped := some .other }
    | .raised .keyboard | .raised .assertion | .raised .noFpcalc => { r with aborted := true }
    | .raised c => { r with escaped := some c }

/-- pyrescene.py:1820-1823: the exit status; an exception that nothing catches gives 1. -/
def AutoRun.status (r : AutoRun) : Nat :=
  if r.escaped ≠ none then 1 else if r.aborted ∨ r.missing ≠ [] then 1 else 0

/-- A release: its samples, and how `generate_srr` ends when all of them are dealt with (the SRR, the other stored files). -/
structure AutoRelease where
  samples : List AutoSample
  rest : AutoEnd

/-- pyrescene.py:856-1262 `generate_srr`, of which only the samples are told apart.  An exception of a sample is not caught. -/
def AutoRelease.fin (dig : Nat → Bool) (lower : Str → Str) (r : AutoRelease) : AutoEnd :=
  match autoSamples dig lower r.samples with
  | .error c => .raised c
  | .ok _ => r.rest

/-- pyrescene.py:1706-1823 `main`: the releases, numbered. -/
def autoMain (dig : Nat → Bool) (lower : Str → Str) (recursive : Bool) (releases : List AutoRelease) : AutoRun :=
  autoLoop recursive {} ((List.range releases.length).zip (releases.map (AutoRelease.fin dig lower)))

end Rescene
