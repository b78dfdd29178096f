import Verif.Model.Paths
/-
Looking for the files to store: /repo/rescene/main.py:1615-1652, and what Python's `glob` does
with the result.
-/
namespace Rescene

/-- main.py:1643-1652 `escape_glob`: the substitution of single characters. -/
def escapeGlob (s : Str) : Str :=
  s.flatMap fun c =>
    if c = 0x5B then str "[[]"
    else if c = 0x5D then str "[]]"
    else if c = 0x2A then str "[*]"
    else if c = 0x3F then str "[?]"
    else [c]

/-- A piece of a shell pattern. -/
inductive GlobTok where
  | star
  | any
  | lit (c : Nat)
  | cls (negated : Bool) (stuff : Str)
  deriving DecidableEq, Repr

/-- Python's fnmatch.py `translate`: what is behind `[`: is it negated, the characters up to the
closing bracket and what follows it.  A bracket at the beginning does not close. -/
def globClass (s : Str) : Option (Bool × Str × Str) :=
  let (neg, s) := if s.head? = some 0x21 then (true, s.drop 1) else (false, s)
  let (pre, s) := if s.head? = some 0x5D then ([0x5D], s.drop 1) else ([], s)
  match s.dropWhile (· != 0x5D) with
  | [] => none
  | _ :: rest => some (neg, pre ++ s.takeWhile (· != 0x5D), rest)

/-- fnmatch.py `translate`: the pieces of a pattern.  The budget is its length. -/
def globToks : Nat → Str → List GlobTok
  | 0, _ => []
  | _ + 1, [] => []
  | fuel + 1, c :: s =>
    if c = 0x2A then .star :: globToks fuel s
    else if c = 0x3F then .any :: globToks fuel s
    else if c = 0x5B then
      match globClass s with
      | none => .lit c :: globToks fuel s
      | some (neg, stuff, rest) => .cls neg stuff :: globToks fuel rest
    else .lit c :: globToks fuel s

/-- Is the character in the class?  With ranges such as `a-z`. -/
def inGlobClass (c : Nat) : Str → Bool
  | [] => false
  | a :: 0x2D :: b :: s => (a ≤ c && c ≤ b) || inGlobClass c s
  | a :: s => a == c || inGlobClass c s

/-- Does the name match the pieces? -/
def globMatches : List GlobTok → Str → Bool
  | [], s => s.isEmpty
  | .star :: ts, [] => globMatches ts []
  | .star :: ts, c :: s => globMatches ts (c :: s) || globMatches (.star :: ts) s
  | _ :: _, [] => false
  | .any :: ts, _ :: s => globMatches ts s
  | .lit a :: ts, c :: s => a == c && globMatches ts s
  | .cls neg stuff :: ts, c :: s => (inGlobClass c stuff != neg) && globMatches ts s
  termination_by ts s => (ts.length + s.length)

/-- `fnmatch.fnmatch` on POSIX. -/
def fnmatch (name pat : Str) : Bool := globMatches (globToks pat.length pat) name

/-- glob.py `has_magic`. -/
def hasMagic (s : Str) : Bool := s.any fun c => c == 0x2A || c == 0x3F || c == 0x5B

/-- glob.py `glob0` and `glob1`: one element of a path.  Names that begin with a dot are only
found by patterns that begin with one. -/
def globElem (pat name : Str) : Bool :=
  if hasMagic pat then (pat.head? == some 0x2E || name.head? != some 0x2E) && fnmatch name pat
  else name == pat

/-- Is the path a result of `glob`, given that it exists?  Element by element. -/
def globPath (pat path : Str) : Bool :=
  let ps := splitOn 0x2F pat
  let ns := splitOn 0x2F path
  ps.length == ns.length && (ps.zip ns).all fun x => globElem x.1 x.2

/-- `glob.glob`: `all` are the paths that exist.  Simplified: paths that are written
differently for the same file (`a//b`) are different ones here. -/
def glob (all : List Str) (pat : Str) : List Str := all.filter (globPath pat)

/-- main.py:1629-1637: where one entry is looked for. -/
def searchName (folder name : Str) : Str :=
  let folder := escapeGlob folder
  let name := escapeGlob name
  if name.head? = some 0x2F ∨ str ".." <+: name then name else posixJoin2 folder name

/-- main.py:1615-1641 `_search`: the files that are found. -/
def search (all : List Str) (isFile : Str → Bool) (files : List Str) (folder : Str) : List Str :=
  files.flatMap fun f => (glob all (searchName folder f)).filter isFile

end Rescene
