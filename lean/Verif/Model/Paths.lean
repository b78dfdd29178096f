import Verif.Model.Str
/-
Path handling (POSIX: `os.sep = "/"`).  The functions of `os.path` are modelled after
CPython's posixpath.py.
-/
namespace Rescene

/-- `s.replace("\\", "/")`, used by rar.py:472. -/
def backToSlash (s : Str) : Str := s.map fun c => if c = 0x5C then 0x2F else c

/-- `posixpath.join(a, b)`. -/
def posixJoin2 (a b : Str) : Str :=
  if b.head? = some 0x2F then b
  else if a = [] ∨ a.getLast? = some 0x2F then a ++ b
  else a ++ 0x2F :: b

/-- `posixpath.join(a, *ps)`. -/
def posixJoin (a : Str) (ps : List Str) : Str := ps.foldl posixJoin2 a

/-- utility.py:387-391: is the path element refused?  `os.path.dirname(elem)` is
nonempty iff there is a `/`; curdir ".", pardir ".." and devnull "/dev/null". -/
def illegalElem (e : Str) : Bool :=
  hasSlash e || e == [] || e == [0x2E] || e == [0x2E, 0x2E] || e == str "/dev/null"

/-- utility.py:380-393 `joinpath(path, start)`. -/
def joinpath (path : List Str) (start : Str) : Res Str :=
  if path.any illegalElem then .error .valueError else .ok (posixJoin start path)

/-- rar.py:464-473 `_SrrFileNameBlock.os_file_name`. -/
def osFileNameSrr (name : Str) : Res Str := joinpath (splitOn 0x2F (backToSlash name)) []

/-- rar.py:1217-1224 `RarPackedFileBlock.os_file_name`. -/
def osFileNameRar (name : Str) : Res Str := joinpath (splitOn 0x5C name) []

/-- The loop of `posixpath.normpath`: `acc` is `new_comps` reversed. -/
def normComps (initial : Bool) : List Str → List Str → List Str
  | acc, [] => acc.reverse
  | acc, c :: cs =>
    if c = [] ∨ c = [0x2E] then normComps initial acc cs
    else if c ≠ [0x2E, 0x2E] ∨ (initial = false ∧ acc = []) ∨ acc.head? = some [0x2E, 0x2E] then
      normComps initial (c :: acc) cs
    else normComps initial acc.tail cs

/-- `posixpath.normpath`. -/
def normpath (path : Str) : Str :=
  if path = [] then [0x2E]
  else
    let initial : Bool := path.head? == some 0x2F
    let slashes : Str :=
      if initial then
        (if path.take 2 = [0x2F, 0x2F] ∧ path.take 3 ≠ [0x2F, 0x2F, 0x2F] then [0x2F, 0x2F] else [0x2F])
      else []
    let p := slashes ++ joinWith 0x2F (normComps initial [] (splitOn 0x2F path))
    if p = [] then [0x2E] else p

/-- main.py:203-211 `_opath(block, extract_paths, out_folder)` for a block with this
`file_name`. -/
def opath (name : Str) (extractPaths : Bool) (outFolder : Str) : Res Str := do
  let fileName ← osFileNameSrr name
  let fileName := if extractPaths then fileName else basename fileName
  return posixJoin (normpath outFolder) [fileName]

end Rescene
