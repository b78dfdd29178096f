import Verif.Model.Inputs
/-
Several calls of `create_srr` with the same Python list of files to store: main.py:500 extends the list of the caller.
-/
namespace Rescene

/-- A call of `create_srr`: the disk at that time, the arguments other than the list of files to store, and the answer of
`can_overwrite`. -/
structure CreateCall where
  disk : FS
  app : Str
  infiles : List Path
  folder : Str
  savePaths : Bool
  compressed : Bool
  oso : Bool
  allowed : Bool

/-- main.py:475-583: the contents of the SRR of this call with this list. -/
def CreateCall.srr (w : World) (fuel : Nat) (c : CreateCall) (store : List Path) : Res Bytes :=
  createFrom w fuel c.disk c.app c.infiles c.folder store c.savePaths c.compressed c.oso

/-- main.py:483-500: the list of the caller after the call.  It is extended when the header is written, whatever happens
afterwards. -/
def CreateCall.listAfter (w : World) (c : CreateCall) (store : List Path) : List Path :=
  if c.allowed then
    match mkSrrHeader c.app with
    | .ok _ => storeList w c.infiles store
    | .error _ => store
  else store

/-- The calls one after the other with the same list: for each the SRR, `none` when an existing one is kept (main.py:483-484), and
the list in the end. -/
def createCalls (w : World) (fuel : Nat) : List Path → List CreateCall → List (Option (Res Bytes)) × List Path
  | store, [] => ([], store)
  | store, c :: cs =>
    let rest := createCalls w fuel (c.listAfter w store) cs
    ((if c.allowed then some (c.srr w fuel store) else none) :: rest.1, rest.2)

end Rescene
