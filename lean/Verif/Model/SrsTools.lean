import Verif.Model.SrsMain
import Verif.Model.SrrTools
/-
The tools /repo/bin/srs_size.py and /repo/bin/srs_bad.py.
-/
namespace Rescene

/-- What `load_srs` tells: the size of the sample, which is missing only when an MKV file has no file data, and the
`match_offset` of each track. -/
abbrev SrsTold := Option Nat × List Int

/-- `sample_class_factory(k).load_srs(f)`, main.py:569-586.  There is no class for unknown files, so `None` has no `load_srs`.
Not modelled: the kind M2TS. -/
def srsTold (k : SampleKind) (srs : Bytes) : Res SrsTold :=
  match k with
  | .stream => do
    let (f, ts) ← streamLoadSrs srs
    return (some f.size, ts.map fun t => t.2.matchOffset)
  | .avi => do
    let (f, ts) ← aviLoadSrs srs
    return (some f.size, ts.map fun t => t.2.matchOffset)
  | .mp4 => do
    let (f, ts) ← mp4LoadSrs srs
    return (some f.size, ts.map fun t => t.2.matchOffset)
  | .wmv => do
    let (f, _, ts) ← wmvLoadSrs srs
    return (some f.size, ts.map fun t => t.2.matchOffset)
  | .mkv => do
    let (f, ts) ← mkvLoadSrs srs
    return (f.map (·.size), ts.map fun t => t.2.offset)
  | .flac => do
    let (f, ts, _) ← flacLoadSrs srs
    return (some f.size, ts.map fun t => t.2.matchOffset)
  | .mp3 => do
    let (f, ts, _) ← mp3LoadSrs srs
    return (some f.size, ts.map fun t => t.2.matchOffset)
  | .m2ts => .error .other
  | .unknown => .error .attrError

/-- srs_size.py:42-48: one file of the walk. -/
def sizeOne (dig : Nat → Bool) (lower : Str → Str) (limit : Int) (path : Path) (data : Bytes) : Res (Option (Path × Nat)) :=
  if lower (path.drop (path.length - 4)) = str ".srs" then do
    let k ← MediaFile.kind dig lower ⟨path, data, none⟩
    let (size, _) ← srsTold k data
    match size with
    | none => throw .attrError
    | some n => if (n : Int) > limit then return some (path, n) else return none
  else return none

/-- srs_size.py:39-48 `main`: what is printed for the files of the tree, in the order of the walk, and how it ends. -/
def srsSize (dig : Nat → Bool) (lower : Str → Str) (limit : Int) : List (Path × Bytes) → List (Path × Nat) × Res Unit
  | [] => ([], .ok ())
  | (p, d) :: t =>
    match sizeOne dig lower limit p d with
    | .error e => ([], .error e)
    | .ok none => srsSize dig lower limit t
    | .ok (some x) =>
      let (l, r) := srsSize dig lower limit t
      (x :: l, r)

/-- srs_bad.py:64-65. -/
def badTxtExts : List Str := [str ".mp3", str ".flac", str ".mkv", str ".mp4", str ".avi", str ".wmv"]

/-- srs_bad.py:64-66: a text file instead of the SRS. -/
def isBadTxt (n : Str) : Bool :=
  endsWith n (str ".txt") && badTxtExts.any fun e => endsWith (n.take (n.length - 4)) e

/-- srs_bad.py:70-80: the loop over the stored files. -/
def badLoop (dig : Nat → Bool) (lower : Str → Str) (temp : Str) (fs : FS) : List Str → Res (List Str)
  | [] => .ok []
  | n :: t =>
    let fn := basename n
    if endsWith fn (str ".srs") then
      match fs (posixJoin temp [fn]) with
      | none => .error .valueError
      | some d => do
        let k ← MediaFile.kind dig lower ⟨posixJoin temp [fn], d, none⟩
        if k = .mp3 ∨ k = .flac then badLoop dig lower temp fs t
        else do
          let (_, offs) ← srsTold k d
          let r ← badLoop dig lower temp fs t
          return if 0 ∈ offs then fn :: r else r
    else badLoop dig lower temp fs t

/-- utility.py:414-427 `empty_folder`. -/
def emptyFolder (temp : Str) (fs : FS) : FS := fun p => if (temp ++ [0x2F]).isPrefixOf p then none else fs p

/-- srs_bad.py:55-93 `handle_srr`: the names in `printout`.  `verify` and `txt` are the options -s and -t. -/
def handleSrr (dig : Nat → Bool) (lower upper : Str → Str) (verify txt : Bool) (temp : Str) (srr : Path) (fs : FS) : FS × Res (List Str) :=
  match fs srr with
  | none => (fs, .error .envError)
  | some data =>
    match info lower upper data with
    | .error e => (fs, .error e)
    | .ok i =>
      let names := i.stored.map (·.1)
      let texts := if txt then names.filter fun n => !(endsWith n (str ".srs") && verify) && isBadTxt n else []
      if verify && names.any fun n => endsWith n (str ".srs") then
        match extractFiles srr (fun _ => false) ⟨temp, false, [], none⟩ fs with
        | (fs, .error e) => (fs, .error e)
        | (fs, .ok _) =>
          match badLoop dig lower temp fs names with
          | .error e => (fs, .error e)
          | .ok l => (emptyFolder temp fs, .ok (texts ++ l))
      else (fs, .ok texts)

/-- srs_bad.py:42-53 `main`: the SRR files that are printed with what they are printed for, in the order of the walk. -/
def srsBad (dig : Nat → Bool) (lower upper : Str → Str) (verify txt : Bool) (temp : Str) : List Path → FS → List (Path × List Str) × Res Unit × FS
  | [], fs => ([], .ok (), fs)
  | p :: t, fs =>
    if lower (p.drop (p.length - 4)) = str ".srr" then
      match handleSrr dig lower upper verify txt temp p fs with
      | (fs, .error e) => ([], .error e, fs)
      | (fs, .ok l) =>
        let (r, e, fs) := srsBad dig lower upper verify txt temp t fs
        (if l = [] then r else (p, l) :: r, e, fs)
    else srsBad dig lower upper verify txt temp t fs

end Rescene
