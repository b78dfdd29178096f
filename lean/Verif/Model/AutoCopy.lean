import Verif.Model.AutoFind
import Verif.Model.AutoStore
import Verif.Model.Inputs
import Verif.Model.Files
/-
Copying the files to store to the working folder: parts of `generate_srr`, `work_dir_file`, `copy_to_working_dir` and
`is_storable_fix` of /repo/bin/pyrescene.py.
-/
namespace Rescene

/-- What copying works with: the release, the working directory of the process, its folders (`os.listdir`), and the
working folder.  Simplified: nothing in the release changes, so the working folder is not in it. -/
structure CopyWorld where
  find : FindWorld
  cwd : Str
  listdir : Str → Option (List Str)
  work : Str

/-- pyrescene.py:938-948: the NFO files that are stored.  Simplified: the size of a file can be read. -/
def nfoFiles (w : FindWorld) : List Str := (w.files ".nfo").filter fun f => nfoStored w.lower (basename f) (w.size f)

/-- pyrescene.py:958-963: a log with this name is stored. -/
def logStored (lower : Str → Str) (name : Str) : Bool :=
  !([str "rushchk.log", str ".upchk.log", str "ufxpcrc.log"].contains (lower name) || name.head? == some 0x2E)

/-- pyrescene.py:957-964: the logs that are stored. -/
def logFiles (w : FindWorld) : List Str := (w.files ".log").filter fun f => logStored w.lower (basename f)

/-- pyrescene.py:936-967: the files that are copied first, in their order. -/
def extraFiles (w : FindWorld) (more : Bool) : Res (List Str) := do
  let proofs ← proofFiles w more
  return nfoFiles w ++ w.files ".m3u" ++ proofs ++ logFiles w ++ w.files ".cue"

/-- pyrescene.py:594-598 `work_dir_file`. -/
def workDirFile (w : CopyWorld) (f : Str) : Res Str := do
  let r ← relpath w.cwd f w.find.root
  return posixJoin2 w.work r

/-- pyrescene.py:600-644 `copy_to_working_dir`: the path in the working folder, and the files afterwards.  A file that
can not be read is not copied, and its path is given all the same.  Simplified: the folders can be made and the copy
can be written. -/
def copyToWork (w : CopyWorld) (fs : FS) (f : Str) : Res (FS × Str) := do
  let (exact, capitals) ← capitalizedFn w.find.lower w.listdir (fun p => (fs p).isSome) f
  let d ← workDirFile w exact
  let dest := posixJoin2 (dirname d) (basename capitals)
  return ((match fs exact with
    | some data => fs.set dest (some data)
    | none => fs), dest)

/-- pyrescene.py:948, 951, 955, 964, 967, 1166: the files of a list are copied, one after another. -/
def copyAll (w : CopyWorld) : FS → List Str → Res (FS × List Str)
  | fs, [] => .ok (fs, [])
  | fs, f :: l => do
    let (fs', d) ← copyToWork w fs f
    let (fs'', ds) ← copyAll w fs' l
    return (fs'', d :: ds)

/-- pyrescene.py:936-967. -/
def copyExtras (w : CopyWorld) (more : Bool) (fs : FS) : Res (FS × List Str) := do
  let l ← extraFiles w.find more
  copyAll w fs l

/-- pyrescene.py:1096-1105: the SRS files of the release are copied where no sample of it gave the file. -/
def copySrs (w : CopyWorld) : FS → List Str → List Str → Res (FS × List Str)
  | fs, copied, [] => .ok (fs, copied)
  | fs, copied, f :: l => do
    let d ← workDirFile w f
    if copied.contains d then copySrs w fs copied l
    else do
      let (fs', d') ← copyToWork w fs f
      copySrs w fs' (copied ++ [d']) l

/-- A text as it is, with its case. -/
def rxExact : Str → Rx
  | [] => rxEps
  | c :: s => .seq (.cls (· == c)) (rxExact s)

/-- One of some words under `re.IGNORECASE`. -/
def rxWords : List Str → Rx
  | [] => .cls fun _ => false
  | w :: ws => .alt (rxWord w) (rxWords ws)

/-- pyrescene.py:658-660: `.*(SFV|PPF|sync|proof?|dir|nfo|Interleaving|Trackorder).?(Fix|Patch).*` under
`re.IGNORECASE`.  `re.match` tries it at the start. -/
def fixRx : Rx :=
  .seq (.many rxDot)
    (.seq (rxWords (["sfv", "ppf", "sync", "proof", "proo", "dir", "nfo", "interleaving", "trackorder"].map str))
      (.seq (rxOpt (.cls rxDot)) (.seq (rxWords (["fix", "patch"].map str)) (.many rxDot))))

/-- pyrescene.py:661: `.*\.(FiX|FIX)(\.|-).*`. -/
def fixRx2 : Rx :=
  .seq (.many rxDot) (.seq (rxExact (str ".")) (.seq (.alt (rxExact (str "FiX")) (rxExact (str "FIX")))
    (.seq (.cls fun c => c == 0x2E || c == 0x2D) (.many rxDot))))

/-- pyrescene.py:662: `.*\.DVDR.Fix-.*`. -/
def fixRx3 : Rx :=
  .seq (.many rxDot) (.seq (rxExact (str ".DVDR")) (.seq (.cls rxDot) (.seq (rxExact (str "Fix-")) (.many rxDot))))

/-- pyrescene.py:663: `.*\.DVDR.REPACK.Fix-.*`. -/
def fixRx4 : Rx :=
  .seq (.many rxDot) (.seq (rxExact (str ".DVDR")) (.seq (.cls rxDot) (.seq (rxExact (str "REPACK"))
    (.seq (.cls rxDot) (.seq (rxExact (str "Fix-")) (.many rxDot))))))

/-- pyrescene.py:653-663 `is_storable_fix`. -/
def storableFix (name : Str) : Bool := fixRx.test name || fixRx2.test name || fixRx3.test name || fixRx4.test name

/-- pyrescene.py:1109-1122: the RAR file of a fix is stored; `listed` is how many files its SFV file lists, `black` the
list of `rar_file_blacklist` (pyrescene.py:96-126). -/
def copyFix (w : CopyWorld) (fs : FS) (black : List Str) (listed : Str → Nat) (mainSfvs mainRars copied : List Str) : Res (FS × List Str) :=
  match mainSfvs, mainRars with
  | [sfv], [rar] =>
    let name := basename w.find.root
    if storableFix name && listed sfv == 1 && !black.contains name then do
      let d ← workDirFile w rar
      if copied.contains d then return (fs, copied)
      else do
        let (fs', d') ← copyToWork w fs rar
        return (fs', copied ++ [d'])
    else .ok (fs, copied)
  | _, _ => .ok (fs, copied)

end Rescene
