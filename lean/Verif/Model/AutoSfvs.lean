import Verif.Model.Release
/-
Which SFV files of a release list its volumes: `remove_unwanted_sfvs`, `get_unwanted_sfvs` and
`get_start_rar_files` of /repo/bin/pyrescene.py.
-/
namespace Rescene

/-- What is looked up while choosing: the names that an SFV file lists (`parse_sfv_file(sfv)[0]`), and for a
path whether it is a file and the names of the files in it when it is read as a RAR archive. -/
structure SfvWorld where
  listed : Str → List Str
  archive : Str → Option (Res (List Str))

/-- One of the words is in the text. -/
def saysAny (words : List String) (s : Str) : Bool := words.any fun w => isIn (str w) s

/-- pyrescene.py:466: `^000?-|.*(cd\d|flac).*`. -/
def musicName (dig : Nat → Bool) (s : Str) : Bool :=
  (Rx.alt (.seq .bos (.seq (rxWord (str "00")) (.seq (rxOpt (rxWord (str "0"))) (rxWord (str "-")))))
    (.seq (.many rxDot) (.seq (.alt (.seq (rxWord (str "cd")) (.cls dig)) (rxWord (str "flac"))) (.many rxDot)))).test s

/-- pyrescene.py:520: `.*Subs.?CD\d$`. -/
def subsCd (dig : Nat → Bool) (s : Str) : Bool :=
  (Rx.seq (.many rxDot) (.seq (rxWord (str "subs")) (.seq (rxOpt (.cls rxDot)) (.seq (rxWord (str "cd")) (.seq (.cls dig) .eos))))).test s

/-- pyrescene.py:448-475: left out for the name of the SFV file; `rel` is the name of the release in lower case. -/
def subsName (dig : Nat → Bool) (lower : Str → Str) (rel name : Str) : Bool :=
  (saysAny ["vobsub", "subtitle"] (lower name) && !saysAny ["subpack", "vobsub", "subtitle", "sub.pack"] rel) ||
  (saysAny ["subs"] (lower name) && !(musicName dig name || saysAny ["subs", "subpack", "vobsub", "subtitle", "subfix", "sub.pack"] rel))

/-- pyrescene.py:479-483. -/
def partFolders : List Str := ["subs", "vobsubs", "vobsub", "subtitles", "sub", "czsubs", "subpack", "vobsubs-full", "vobsubs-light",
  "codec", "codecs", "cover", "covers"].map str

/-- pyrescene.py:506-507. -/
def imageName (lower : Str → Str) (f : Str) : Bool :=
  ([".jpg", "jpeg", ".png", ".bmp", ".gif"].map str).contains (lower (f.drop (f.length - 4)))

/-- pyrescene.py:492-518: is the SFV in a folder for proofs left out?  Simplified: the answer of the archive is a
list or an error (`ValueError` is caught). -/
def proofOut (w : SfvWorld) (lower : Str → Str) (sfv : Str) : Res Bool :=
  match w.listed sfv with
  | [f] =>
    let rar := posixJoin2 (dirname sfv) f
    if !endsWith rar (str ".rar") then .ok true
    else
      match w.archive rar with
      | none => .ok true
      | some (.ok names) => .ok (match names.getLast? with
        | some n => imageName lower n
        | none => false)
      | some (.error .valueError) => .ok true
      | some (.error e) => .error e
  | _ => .ok false

/-- pyrescene.py:492-518, with the name of the folder in lower case. -/
def proofTest (w : SfvWorld) (lower : Str → Str) (pardir sfv : Str) : Res Bool :=
  if pardir = str "proof" ∨ pardir = str "proofs" then proofOut w lower sfv else .ok false

/-- pyrescene.py:437-545: the tests for one SFV file; `rel` is the name of the release in lower case. -/
def wantedSfv (w : SfvWorld) (dig : Nat → Bool) (lower : Str → Str) (rel sfv : Str) : Res Bool :=
  if subsName dig lower rel (basename sfv) then .ok false
  else
    let pardir := lower (basename (dirname sfv))
    if partFolders.contains pardir then .ok false
    else do
      let out ← proofTest w lower pardir sfv
      if out then .ok false
      else if subsCd dig (dirname sfv) then .ok false
      else if isIn (str "subpack") pardir && !isIn (str "subpack") rel then .ok false
      else if isIn (str "subfix") pardir && !isIn (str "subfix") rel then .ok false
      else if isIn (str "fix") pardir && !isIn (str "fix") rel then .ok false
      else .ok true

/-- A loop that keeps what a test says. -/
def filterRes {α : Type} (p : α → Res Bool) : List α → Res (List α)
  | [] => .ok []
  | x :: l => do
    let b ← p x
    let r ← filterRes p l
    .ok (if b then x :: r else r)

/-- pyrescene.py:557-561 `has_music`. -/
def hasMusic (names : List Str) : Bool :=
  names.any fun f => endsWith f (str ".mp3") || endsWith f (str ".flac") || endsWith f (str ".mp2")

/-- pyrescene.py:431-573 `remove_unwanted_sfvs`. -/
def mainSfvs (w : SfvWorld) (dig : Nat → Bool) (lower : Str → Str) (release : Str) (sfvs : List Str) : Res (List Str) := do
  let wanted ← filterRes (wantedSfv w dig lower (lower (basename release))) sfvs
  .ok (if wanted.isEmpty then sfvs.filter fun s => decide ((w.listed s).length > 1) || hasMusic (w.listed s) else wanted)

/-- pyrescene.py:575-576 `get_unwanted_sfvs`.  Simplified: in the order of the list (`list(set)` has any order). -/
def extraSfvs (all main : List Str) : List Str := all.filter fun s => !main.contains s

/-- pyrescene.py:578-592 `get_start_rar_files`. -/
def startRars (w : SfvWorld) (dig : Nat → Bool) (lower : Str → Str) (sfvs : List Str) : List Str :=
  sfvs.flatMap fun s => (firstRars dig lower (w.listed s)).map fun f => posixJoin2 (dirname s) f

end Rescene
