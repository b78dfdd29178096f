import Verif.Model.Inputs
import Verif.Model.Files
/-
What `create_srr` does to the file system: /repo/rescene/main.py:452-586.
-/
namespace Rescene

/-- What is written to the SRR one after the other, and how it ends: with a value, or with an exception before
which the SRR was removed (`true`) or not. -/
structure Written (α : Type) where
  out : List Bytes
  res : Except (Err × Bool) α

/-- One after the other. -/
def Written.andThen {α β : Type} (t : Written α) (f : α → Written β) : Written β :=
  match t.res with
  | .error e => ⟨t.out, .error e⟩
  | .ok a => ⟨t.out ++ (f a).out, (f a).res⟩

/-- `srr.write(b)`. -/
def emit (b : Bytes) : Written Unit := ⟨[b], .ok ()⟩

/-- Something that writes nothing and may raise. -/
def quiet {α : Type} (r : Res α) : Written α :=
  ⟨[], match r with
    | .ok a => .ok a
    | .error e => .error (e, false)⟩

/-- `srr.close(); os.unlink(tmp_srr_name); raise`. -/
def removed {α : Type} (e : Err) : Written α := ⟨[], .error (e, true)⟩

/-- main.py:1569-1599 `_store`, for the files found. -/
def writeStoredFiles (w : World) (fs : FS) (savePaths : Bool) (inFolder : Str) : List Path → Written Unit
  | [] => quiet (.ok ())
  | p :: t =>
    (quiet (srrName w savePaths inFolder p)).andThen fun name =>
    match fs p with
    | none => quiet (.error .envError)
    | some data =>
      (quiet (mkStored name data.length)).andThen fun h =>
      (emit h).andThen fun _ => (emit data).andThen fun _ => writeStoredFiles w fs savePaths inFolder t

/-- main.py:541-567: one block; the removal is in lines 549-553. -/
def writeOneBlock (compressed : Bool) (rar : Path) (oso : List (Str × Path)) (b : Block) : Written (List (Str × Path)) :=
  match b.kind with
  | .packed f =>
    if b.btype = 0x74 ∧ f.method ≠ 0x30 ∧ compressed = false then removed .valueError
    else (quiet (createBlock compressed rar oso b)).andThen fun oso => (emit b.raw).andThen fun _ => quiet (.ok oso)
  | _ => (quiet (createBlock compressed rar oso b)).andThen fun oso => (emit b.raw).andThen fun _ => quiet (.ok oso)

/-- main.py:540-567: the blocks of a volume. -/
def writeAllBlocks (compressed : Bool) (rar : Path) : List (Str × Path) → List Block → Written (List (Str × Path))
  | oso, [] => quiet (.ok oso)
  | oso, b :: t => (writeOneBlock compressed rar oso b).andThen fun oso => writeAllBlocks compressed rar oso t

/-- main.py:520-567: one volume; the removal is in lines 523-528.  All blocks are read before the first is
written (`read_all`). -/
def writeOneVolume (w : World) (fs : FS) (savePaths : Bool) (inFolder : Str) (compressed : Bool) (oso : List (Str × Path)) (rar : Path) :
    Written (List (Str × Path)) :=
  (quiet (capitalizedFn w.lower w.listdir (fun p => (fs p).isSome) rar)).andThen fun x =>
  match fs x.1 with
  | none => removed .fileNotFound
  | some data =>
    (quiet (srrName w savePaths inFolder x.2)).andThen fun name =>
    (quiet (mkRarFile name)).andThen fun h =>
    (emit h).andThen fun _ =>
    (quiet (readAll data)).andThen fun blocks => writeAllBlocks compressed rar oso blocks

/-- main.py:518-567: the volumes. -/
def writeAllVolumes (w : World) (fs : FS) (savePaths : Bool) (inFolder : Str) (compressed : Bool) :
    List (Str × Path) → List Path → Written (List (Str × Path))
  | oso, [] => quiet (.ok oso)
  | oso, r :: t => (writeOneVolume w fs savePaths inFolder compressed oso r).andThen fun oso =>
      writeAllVolumes w fs savePaths inFolder compressed oso t

/-- main.py:496-583: everything after the header.  The OSO hashes are written in one piece here. -/
def writeRest (w : World) (fuel : Nat) (fs : FS) (infiles : List Path) (inFolder : Str) (storeFiles : List Path)
    (savePaths compressed oso : Bool) : Written Unit :=
  (writeStoredFiles w fs savePaths inFolder (search w.all (fun p => (fs p).isSome) (storeList w infiles storeFiles) inFolder)).andThen fun _ =>
  (quiet (collect w fs fuel infiles)).andThen fun rars =>
  (writeAllVolumes w fs savePaths inFolder compressed [] rars).andThen fun dict =>
  (quiet (if oso then osoPieces w.dig w.lower fs fuel dict else .ok [])).andThen fun o => emit o

/-- `finally: srr.close()` with the pending outcome. -/
def closing (tmp : Path) (r : Res Unit) : Prog :=
  .act (.close tmp) (.done r) fun e => .done (.error e)

/-- main.py:523-528, 549-553, 583-586: the end of the function. -/
def finishCreate (tmp : Path) : Except (Err × Bool) Unit → Prog
  | .ok _ => closing tmp (.ok ())
  | .error (e, false) => closing tmp (.error e)
  | .error (e, true) =>
    .act (.close tmp) (.act (.unlink tmp) (closing tmp (.error e)) fun e' => closing tmp (.error e')) fun e' => closing tmp (.error e')

/-- main.py:452-586 `create_srr` on the file system; `tmp` is the file written, `src` stands for the files that
are read (`tmp` is not among them).  The result False of an existing SRR that is kept is `.ok ()` with nothing done (`allowed` is the
answer of `can_overwrite`). -/
def createProg (tmp src : Path) (allowed : Bool) (header : Res Bytes) (rest : Written Unit) : Prog :=
  if allowed then
    .act (.create tmp)
      (match header with
        | .error e => .done (.error e)
        | .ok h =>
          .act (.write tmp h)
            (writeChunks src tmp (rest.out.map Except.ok) (finishCreate tmp rest.res) fun e => closing tmp (.error e))
            fun e => .done (.error e))
      fun e => .done (.error e)
  else .done (.ok ())

end Rescene
