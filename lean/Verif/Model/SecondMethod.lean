import Verif.Model.RarSets
/-
The second method for compressed files, one archive of all files of the set, and when it is used:
/repo/rescene/main.py:1926-1929, 1998-2062 and 2622-2708.

`rar` is outside the code, as in `RarSearch`: what it packs for a file with a command line is an
argument.  The directory for temporary files, the waiting and the messages are left out.
-/
namespace Rescene

/-- `archived_files`: the names of the files that were made and the executable and parameters
(`good_rar`) that were good for each. -/
abbrev SettledFiles := List (Str × (RarVersion × RarArgs))

/-- main.py:1926-1929 `thread_count`. -/
def RarArgs.threadCount (a : RarArgs) : Int := match a.threads with | none => 1 | some c => c

/-- main.py:2652-2655: one of the files with the highest thread count. -/
def mostThreads : RarVersion × RarArgs → SettledFiles → RarVersion × RarArgs
  | cur, [] => cur
  | cur, x :: xs => mostThreads (if x.2.2.threadCount > cur.2.threadCount then x.2 else cur) xs

/-- main.py:2641-2655: the settings for the archive of all files; `prev` is the name of the file
before this one. -/
def secondSettings (known : SettledFiles) (prev : Str) : Res (RarVersion × RarArgs) :=
  match known with
  | [] => .error .assertError
  | first :: _ =>
    .ok (mostThreads (match known.lookup prev with | some g => g | none => first.2) known)

/-- main.py:2660-2663: `_locate_file` of the blocks with packed data. -/
def secondFiles (locate : PackedPart → Res Str) : List PackedPart → Res (List Str)
  | [] => .ok []
  | p :: ps =>
    if p.psize ≠ 0 then do
      let f ← locate p
      let fs ← secondFiles locate ps
      return f :: fs
    else secondFiles locate ps

/-- main.py:2625-2664 `CompressedRarFileAll.__init__`, until the archive is made.  `volume` is
`calculate_size_volume(all_blocks)`, `out` the name of the archive.  The parameters are the ones
of the chosen file: what `store_all_files` has from an earlier archive stays. -/
def secondArchive (known : SettledFiles) (volume : Nat) (out : Str) (locate : PackedPart → Res Str) (i : Nat) (b : PackedPart)
    (blocks : List PackedPart) : Res (RarVersion × RarArgs) := do
  let g ← secondSettings known (previousBlock i b blocks).name
  let files ← secondFiles locate blocks
  return (g.1, { g.2 with split := volume, archive := out, all := g.2.all ++ files })

/-- `regular_method_failed`: the executable, the parameters and the blocks of the set. -/
structure SecondState where
  version : RarVersion
  args : RarArgs
  blocks : List PackedPart
  deriving DecidableEq, Repr

/-- main.py:2678-2708 `set_file`: the data that is served for a block and the state afterwards.
`pack v c n` is what `rar` with command line `c` packs for the file with name `n`, or the error of
`RarStream` when there is none. -/
def setFile (s : MtSettings) (pack : RarVersion → List Str → Str → Res Bytes) (st : SecondState) (b : PackedPart) :
    Res (SecondState × Bytes) :=
  if b.flags &&& 0xE0 = 0xE0 then .ok (st, List.replicate b.psize 0)
  else
    match secondMethod s st.version (fun a => pack st.version (a.arglist st.version) (basename b.name)) (fullSize b st.blocks)
        40 st.args with
    | .error e => .error e
    | .ok (a, d) => .ok ({ st with args := a }, d)

/-- main.py:1998-2062 `compressed_rar_file_factory`.  `regular` is what comes of lines 2006-2052
(`.other` is `RarNotFound`), `failed` is `regular_method_failed`, `blocks` the set of the block.
Gives the new `regular_method_failed` and the data. -/
def factory (s : MtSettings) (pack : RarVersion → List Str → Str → Res Bytes) (known : SettledFiles) (failed : Option SecondState)
    (regular : Res Bytes) (volume : Nat) (out : Str) (locate : PackedPart → Res Str) (i : Nat) (b : PackedPart)
    (blocks : List PackedPart) : Res (Option SecondState × Bytes) :=
  match failed with
  | some st => do
    let x ← setFile s pack st b
    return (some x.1, x.2)
  | none =>
    match regular with
    | .ok d => .ok (none, d)
    | .error e =>
      if (e = .other ∨ e = .valueError) ∧ known ≠ [] then do
        let g ← secondArchive known volume out locate i b blocks
        let x ← setFile s pack ⟨g.1, g.2, blocks⟩ b
        return (some x.1, x.2)
      else .error e

end Rescene
