import Verif.Lemmas.CreateFiles
import Verif.Props.CreateFrom
import Verif.Props.CreateFromExample
/-
C72: what `create_srr` leaves on disk.
-/
namespace Rescene.Props
open Rescene Spec

/-- The arguments of `create_srr`. -/
structure CreateArgs where
  app : Str
  infiles : List Path
  folder : Str
  store : List Path
  savePaths : Bool
  compressed : Bool
  oso : Bool

/-- The contents of the SRR for these arguments. -/
def CreateArgs.contents (a : CreateArgs) (w : World) (fuel : Nat) (fs : FS) : Res Bytes :=
  createFrom w fuel fs a.app a.infiles a.folder a.store a.savePaths a.compressed a.oso

/-- `create_srr` with these arguments; the SRR is written to `tmp`. -/
def CreateArgs.prog (a : CreateArgs) (w : World) (fuel : Nat) (fs : FS) (tmp src : Path) (allowed : Bool) : Prog :=
  createProg tmp src allowed (mkSrrHeader a.app) (writeRest w fuel fs a.infiles a.folder a.store a.savePaths a.compressed a.oso)

/-- C72: whatever fails, and whenever the process is killed, no file but the one written is changed. -/
theorem create_only_writes_srr (a : CreateArgs) (w : World) (fuel : Nat) (fs : FS) (tmp src : Path) (allowed : Bool) :
    (∀ faults q, q ≠ tmp → (run (a.prog w fuel fs tmp src allowed) fs faults).1 q = fs q) ∧
    (∀ may m q, Moment may (a.prog w fuel fs tmp src allowed) fs m → q ≠ tmp → m q = fs q) :=
  ⟨fun faults _ hq => run_at (createProg_at _ _ _ _ _) fs faults hq, fun _ _ _ hm hq => moment_at (createProg_at _ _ _ _ _) hm hq⟩

/-- C72: an SRR that may not be overwritten is not touched, and nothing else is. -/
theorem create_keeps_existing (a : CreateArgs) (w : World) (fuel : Nat) (fs : FS) (tmp src : Path) (faults : List Fault) :
    run (a.prog w fuel fs tmp src false) fs faults = (fs, .ok ()) := rfl

theorem chunksVal_oks (l : List Bytes) : chunksVal (l.map Except.ok) = .ok l.flatten := by
  induction l with
  | nil => rfl
  | cons b l ih => simp [chunksVal, ih]

/-- The run without faults. -/
theorem create_run {a : CreateArgs} {w : World} {fuel : Nat} {fs : FS} {tmp src : Path} {h : Bytes} (hh : mkSrrHeader a.app = .ok h) :
    run (a.prog w fuel fs tmp src true) fs [] =
      let rest := writeRest w fuel fs a.infiles a.folder a.store a.savePaths a.compressed a.oso
      match rest.res with
      | .ok _ => (fs.set tmp (some (h ++ rest.out.flatten)), .ok ())
      | .error (e, false) => (fs.set tmp (some (h ++ rest.out.flatten)), .error e)
      | .error (e, true) => (fs.set tmp none, .error e) := by
  unfold CreateArgs.prog createProg
  simp only [if_true, hh, run, step, List.headD_nil, List.tail_nil, appendTo, FS.set_eq, Option.getD_some, FS.set_set, List.nil_append]
  rw [run_writeChunks (c := h) (chunksVal_oks _) (FS.set_eq _ _ _), FS.set_set]
  rcases (writeRest w fuel fs a.infiles a.folder a.store a.savePaths a.compressed a.oso).res with ⟨e, b⟩ | u
  · cases b with
    | false => simp [finishCreate, closing, run, step]
    | true => simp [finishCreate, closing, run, step, FS.set_eq, FS.set_set]
  · simp [finishCreate, closing, run, step]

/-- C72: when there are contents and nothing fails, they are what is written. -/
theorem create_writes_contents {a : CreateArgs} {w : World} {fuel : Nat} {fs : FS} {tmp src : Path} {srr : Bytes}
    (h : a.contents w fuel fs = .ok srr) :
    run (a.prog w fuel fs tmp src true) fs [] = (fs.set tmp (some srr), .ok ()) := by
  have hs := writeRest_same w fuel fs a.app a.infiles a.folder a.store a.savePaths a.compressed a.oso
  unfold CreateArgs.contents at h
  rw [h] at hs
  cases hh : mkSrrHeader a.app with
  | error e =>
    rw [hh] at hs
    cases hr : (writeRest w fuel fs a.infiles a.folder a.store a.savePaths a.compressed a.oso).res <;>
    · rw [hr] at hs
      obtain ⟨e, he⟩ := hs
      cases he
  | ok hd =>
    rw [create_run hh]
    rw [hh] at hs
    cases hr : (writeRest w fuel fs a.infiles a.folder a.store a.savePaths a.compressed a.oso).res with
    | error e =>
      rw [hr] at hs
      obtain ⟨e, he⟩ := hs
      cases he
    | ok u =>
      rw [hr] at hs
      simp only [Except.ok.injEq] at hs
      simp only [hs, hr]

/-- C72: success is only reported when there are contents and they were written, or when an existing SRR is
kept.  The faults may hit any access. -/
theorem create_success_sound {a : CreateArgs} {w : World} {fuel : Nat} {fs : FS} {tmp src : Path} {faults : List Fault} {fs' : FS}
    (h : run (a.prog w fuel fs tmp src true) fs faults = (fs', .ok ())) :
    ∃ srr, a.contents w fuel fs = .ok srr ∧ fs' = fs.set tmp (some srr) := by
  have hs := writeRest_same w fuel fs a.app a.infiles a.folder a.store a.savePaths a.compressed a.oso
  unfold CreateArgs.contents
  unfold CreateArgs.prog createProg at h
  generalize writeRest w fuel fs a.infiles a.folder a.store a.savePaths a.compressed a.oso = rest at *
  rw [if_pos rfl] at h
  unfold run at h
  cases hf : faults.headD none with
  | some x =>
    obtain ⟨e, n⟩ := x
    rw [hf] at h
    simp [step, run] at h
  | none =>
    rw [hf] at h
    simp only [step] at h
    cases hh : mkSrrHeader a.app with
    | error e => rw [hh] at h; simp [run] at h
    | ok hd =>
      rw [hh] at h hs
      dsimp only at h
      unfold run at h
      cases hf2 : faults.tail.headD none with
      | some x =>
        obtain ⟨e, n⟩ := x
        rw [hf2] at h
        simp [step, run] at h
      | none =>
        rw [hf2] at h
        simp only [step, appendTo, FS.set_eq, Option.getD_some, FS.set_set, List.nil_append] at h
        have hclose : ∀ (fs1 : FS) (e : Err) (fl : List Fault), (run (closing tmp (.error e)) fs1 fl).2 ≠ .ok () := by
          intro fs1 e fl
          unfold closing run
          rw [step_close]
          cases fl.headD none <;> simp [run]
        have hclose2 : ∀ (fs1 : FS) (fl : List Fault), (run (closing tmp (.ok ())) fs1 fl).1 = fs1 := by
          intro fs1 fl
          unfold closing run
          rw [step_close]
          cases fl.headD none <;> simp [run]
        have key := run_writeChunks_faults (may := fun _ => true) (src := src) (p := tmp) (cs := rest.out.map Except.ok)
          (k := finishCreate tmp rest.res)
          (h := fun e => closing tmp (.error e)) (fs0 := fs) (c := hd) (faults := faults.tail.tail)
          (P := fun r => r.2 = .ok () → r.1 = fs.set tmp (some (hd ++ rest.out.flatten)) ∧ ∃ u, rest.res = .ok u)
          (by
            intro wr fl hw _ hok
            rw [chunksVal_oks] at hw
            simp only [Except.ok.injEq] at hw
            subst hw
            cases hr : rest.res with
            | ok u =>
              rw [hr] at hok
              exact ⟨hclose2 _ _, u, rfl⟩
            | error x =>
              obtain ⟨e, b⟩ := x
              exfalso
              rw [hr] at hok
              cases b with
              | false => exact hclose _ _ _ hok
              | true =>
                simp only [finishCreate] at hok
                unfold run at hok
                rw [step_close] at hok
                cases hc : fl.headD none with
                | some y =>
                  rw [hc] at hok
                  exact hclose _ _ _ hok
                | none =>
                  rw [hc] at hok
                  simp only [Option.map_none] at hok
                  unfold run at hok
                  split at hok
                  · exact hclose _ _ _ hok
                  · exact hclose _ _ _ hok)
          (by
            intro e wr fl _ hok
            exact absurd hok (hclose _ _ _))
          (faultsIn_all _ _ _)
        rw [h] at key
        obtain ⟨h1, u, hu⟩ := key rfl
        rw [hu] at hs
        exact ⟨_, hs, h1⟩

/-! ### Exceptions -/

theorem sameAs_ok {α : Type} {t : Written α} {r : Res (Bytes × α)} {x : Bytes × α} (h : SameAs t r) (hr : r = .ok x) :
    t.res = .ok x.2 ∧ t.out.flatten = x.1 := by
  unfold SameAs at h
  cases ht : t.res with
  | error e =>
    rw [ht] at h
    obtain ⟨e, h⟩ := h
    rw [hr] at h; cases h
  | ok a =>
    rw [ht] at h
    rw [hr] at h
    simp only [Except.ok.injEq] at h
    subst h
    exact ⟨rfl, rfl⟩

/-- Up to this volume all is well: the files are stored, and the volumes before it can be written. -/
structure UpTo (a : CreateArgs) (w : World) (fuel : Nat) (fs : FS) (p : Path) where
  stored : List (Str × Path)
  storedBytes : Bytes
  before : List Path
  after : List Path
  vols : List RarIn
  written : Bytes × List (Str × Path)
  header : Bytes
  hheader : mkSrrHeader a.app = .ok header
  hstored : storedInput w fs a.savePaths a.folder a.infiles a.store = .ok stored
  hbytes : storeAll fs stored = .ok storedBytes
  hrars : collect w fs fuel a.infiles = .ok (before ++ p :: after)
  hvols : before.mapM (rarInput w fs a.savePaths a.folder) = .ok vols
  hwritten : createVolumes fs a.compressed [] vols = .ok written

theorem andThen_out {α β : Type} {t : Written α} {f : α → Written β} {x : α} (h : t.res = .ok x) :
    t.andThen f = ⟨t.out ++ (f x).out, (f x).res⟩ := by
  unfold Written.andThen
  rw [h]

theorem andThen_error {α β : Type} {t : Written α} {f : α → Written β} {e : Err × Bool} (h : t.res = .error e) :
    t.andThen f = ⟨t.out, .error e⟩ := by
  unfold Written.andThen
  rw [h]

theorem quiet_andThen {α β : Type} (x : α) (f : α → Written β) : (quiet (.ok x)).andThen f = f x := by
  simp [quiet, Written.andThen]

theorem quiet_fail {α β : Type} (e : Err) (f : α → Written β) : (quiet (.error e)).andThen f = ⟨[], .error (e, false)⟩ := by
  simp [quiet, Written.andThen]

theorem writeAllVolumes_append (w : World) (fs : FS) (sp : Bool) (folder : Str) (compressed : Bool) (a b : List Path) :
    ∀ {oso dict : List (Str × Path)}, (writeAllVolumes w fs sp folder compressed oso a).res = .ok dict →
    writeAllVolumes w fs sp folder compressed oso (a ++ b) =
      ⟨(writeAllVolumes w fs sp folder compressed oso a).out ++ (writeAllVolumes w fs sp folder compressed dict b).out,
        (writeAllVolumes w fs sp folder compressed dict b).res⟩ := by
  induction a with
  | nil =>
    intro oso dict h
    simp only [writeAllVolumes, quiet, Except.ok.injEq] at h ⊢
    subst h
    rfl
  | cons r a ih =>
    intro oso dict h
    simp only [writeAllVolumes, List.cons_append] at h ⊢
    cases hv : (writeOneVolume w fs sp folder compressed oso r).res with
    | error e => rw [andThen_error hv] at h; cases h
    | ok d =>
      rw [andThen_out hv] at h
      rw [andThen_out hv, andThen_out hv, ih h, List.append_assoc]

/-- When the volume can not be written, the end is as this volume says. -/
theorem rest_upTo {a : CreateArgs} {w : World} {fuel : Nat} {fs : FS} {p : Path} (u : UpTo a w fuel fs p) {e : Err × Bool}
    (h : (writeOneVolume w fs a.savePaths a.folder a.compressed u.written.2 p).res = .error e) :
    (writeRest w fuel fs a.infiles a.folder a.store a.savePaths a.compressed a.oso).res = .error e ∧
      (writeRest w fuel fs a.infiles a.folder a.store a.savePaths a.compressed a.oso).out.flatten =
        u.storedBytes ++ (u.written.1 ++ (writeOneVolume w fs a.savePaths a.folder a.compressed u.written.2 p).out.flatten) := by
  obtain ⟨s1, s2⟩ := sameAs_ok (writeStoredFiles_same w fs a.savePaths a.folder
    (search w.all (fun p => (fs p).isSome) (storeList w a.infiles a.store) a.folder)) (x := (u.storedBytes, ()))
    (by
      have := u.hstored
      unfold storedInput at this
      rw [this, ok_bind, u.hbytes]; rfl)
  obtain ⟨v1, v2⟩ := sameAs_ok (writeAllVolumes_same w fs a.savePaths a.folder a.compressed [] u.before) (x := u.written)
    (by rw [u.hvols, ok_bind, u.hwritten])
  unfold writeRest
  rw [andThen_out s1, u.hrars, quiet_andThen]
  have hall : writeAllVolumes w fs a.savePaths a.folder a.compressed [] (u.before ++ p :: u.after) =
      ⟨(writeAllVolumes w fs a.savePaths a.folder a.compressed [] u.before).out ++
        (writeOneVolume w fs a.savePaths a.folder a.compressed u.written.2 p).out, .error e⟩ := by
    rw [writeAllVolumes_append _ _ _ _ _ _ _ v1]
    simp only [writeAllVolumes]
    rw [andThen_error h]
  rw [hall, andThen_error (e := e) rfl]
  exact ⟨rfl, by simp [s2, v2]⟩

/-- C72: a volume that is missing, all before it being well: FileNotFound is raised, and nothing is left at the
place of the SRR. -/
theorem create_missing_removed {a : CreateArgs} {w : World} {fuel : Nat} {fs : FS} {tmp src : Path} {p : Path}
    (u : UpTo a w fuel fs p) (hu : Usual p) {names : List Str} (hl : w.listdir (dirname p) = some names)
    (hno : ∀ d ∈ names, w.lower d = w.lower (basename p) → fs (posixJoin2 (dirname p) d) = none) (hf : fs p = none) :
    run (a.prog w fuel fs tmp src true) fs [] = (fs.set tmp none, .error .fileNotFound) := by
  have hv : (writeOneVolume w fs a.savePaths a.folder a.compressed u.written.2 p).res = .error (.fileNotFound, true) := by
    unfold writeOneVolume
    rw [capitalized_none w.lower w.listdir (fun p => (fs p).isSome) p hu names hl (fun d hd h => by simp [hno d hd h]), quiet_andThen]
    simp [hf, removed]
  rw [create_run u.hheader]
  simp only [(rest_upTo u hv).1]

/-- C72: a volume with a compressed file, all before it being well: ValueError is raised unless compressed files
are allowed, and nothing is left at the place of the SRR. -/
theorem create_compressed_removed {a : CreateArgs} {w : World} {fuel : Nat} {fs : FS} {tmp src : Path} {p : Path}
    (u : UpTo a w fuel fs p) (hcomp : a.compressed = false) (hu : Usual p) (ho : OnlyCase w fs p) {data : Bytes} (hf : fs p = some data)
    {name : Str} (hname : srrName w a.savePaths a.folder p = .ok name) {hdr : Bytes} (hhdr : mkRarFile name = .ok hdr)
    {bs cs : List Block} {b : Block} {f : FileFields} (hread : readAll data = .ok (bs ++ b :: cs)) (hb : b.btype = 0x74) (hk : b.kind = .packed f)
    (hm : f.method ≠ 0x30) {x : Bytes × List (Str × Path)} (hbs : createBlocks false p u.written.2 bs = .ok x) :
    run (a.prog w fuel fs tmp src true) fs [] = (fs.set tmp none, .error .valueError) := by
  have hbl : ∀ (bs : List Block) (oso : List (Str × Path)) (x : Bytes × List (Str × Path)), createBlocks false p oso bs = .ok x →
      (writeAllBlocks false p oso (bs ++ b :: cs)).res = .error (.valueError, true) := by
    intro bs
    induction bs with
    | nil =>
      intro oso x _
      have hone : writeOneBlock false p oso b = removed .valueError := by
        unfold writeOneBlock
        rw [hk]
        dsimp only
        rw [if_pos ⟨hb, hm, rfl⟩]
      simp only [List.nil_append, writeAllBlocks]
      rw [hone, andThen_error (e := (.valueError, true)) rfl]
    | cons c bs ih =>
      intro oso x hx
      simp only [createBlocks, bind_eq_ok, pure_eq_ok, Except.ok.injEq] at hx
      obtain ⟨o, h1, y, h2, rfl⟩ := hx
      simp only [List.cons_append, writeAllBlocks]
      rw [andThen_out (sameAs_ok (writeOneBlock_same false p oso c) (x := (c.raw, o)) (by rw [h1]; rfl)).1]
      exact ih o y h2
  have hv : (writeOneVolume w fs a.savePaths a.folder a.compressed u.written.2 p).res = .error (.valueError, true) := by
    unfold writeOneVolume
    rw [capitalized_same hu ho (by rw [hf]; rfl), quiet_andThen]
    simp only [hf]
    rw [hname, quiet_andThen, hhdr, quiet_andThen, andThen_out (x := ()) rfl]
    dsimp only
    rw [hread, quiet_andThen, hcomp]
    exact hbl bs _ x hbs
  rw [create_run u.hheader]
  simp only [(rest_upTo u hv).1]

/-- C72, disagreement: a volume that can not be read, all before it being well: the exception leaves a
truncated SRR behind, with the name of the volume at its end. -/
theorem create_damaged_left {a : CreateArgs} {w : World} {fuel : Nat} {fs : FS} {tmp src : Path} {p : Path}
    (u : UpTo a w fuel fs p) (hu : Usual p) (ho : OnlyCase w fs p) {data : Bytes} (hf : fs p = some data)
    {name : Str} (hname : srrName w a.savePaths a.folder p = .ok name) {hdr : Bytes} (hhdr : mkRarFile name = .ok hdr)
    {e : Err} (hread : readAll data = .error e) :
    run (a.prog w fuel fs tmp src true) fs [] =
      (fs.set tmp (some (u.header ++ (u.storedBytes ++ (u.written.1 ++ hdr)))), .error e) := by
  have hv : writeOneVolume w fs a.savePaths a.folder a.compressed u.written.2 p = ⟨[hdr], .error (e, false)⟩ := by
    unfold writeOneVolume
    rw [capitalized_same hu ho (by rw [hf]; rfl), quiet_andThen]
    simp only [hf]
    rw [hname, quiet_andThen, hhdr, quiet_andThen, andThen_out (x := ()) rfl]
    rw [hread, quiet_fail]
    simp [emit]
  obtain ⟨h1, h2⟩ := rest_upTo u (by rw [hv])
  rw [create_run u.hheader]
  simp only [h1, h2, hv]
  simp

/-- C72, disagreement: with no other file to write to, an existing SRR that may be overwritten is lost when a
volume is missing. -/
theorem create_existing_lost {a : CreateArgs} {w : World} {fuel : Nat} {fs : FS} {srr src : Path} {old : Bytes} (hold : fs srr = some old) {p : Path}
    (u : UpTo a w fuel fs p) (hu : Usual p) {names : List Str} (hl : w.listdir (dirname p) = some names)
    (hno : ∀ d ∈ names, w.lower d = w.lower (basename p) → fs (posixJoin2 (dirname p) d) = none) (hf : fs p = none) :
    (run (a.prog w fuel fs srr src true) fs []).1 srr = none ∧ fs srr ≠ none := by
  rw [create_missing_removed u hu hl hno hf]
  exact ⟨FS.set_eq _ _ _, by rw [hold]; simp⟩

/-! ### A concrete case -/

set_option maxRecDepth 100000

/-- The volumes of the example, the second one missing. -/
def goneDisk (p : Path) : Option Bytes := if p = str "/in/a.r00" then none else inDisk p

/-- The same, the second one damaged. -/
def badDisk (p : Path) : Option Bytes := if p = str "/in/a.r00" then some [0x52] else inDisk p

def exCreate : CreateArgs := ⟨str "app", [str "/in/a.sfv"], str "/in", [str "a.nfo"], false, false, false⟩

/-- The value. -/
def getOk {α : Type} (r : Res α) (d : α) : α :=
  match r with
  | .ok a => a
  | .error _ => d

/-- The first volume is there in both cases. -/
def exUpTo (fs : FS) (h1 : collect inWorld fs 9 [str "/in/a.sfv"] = .ok [str "/in/a.rar", str "/in/a.r00"])
    (h2 : storedInput inWorld fs false (str "/in") [str "/in/a.sfv"] [str "a.nfo"] = .ok [(str "a.nfo", str "/in/a.nfo"), (str "a.sfv", str "/in/a.sfv")])
    (h3 : storeAll fs [(str "a.nfo", str "/in/a.nfo"), (str "a.sfv", str "/in/a.sfv")] =
      .ok (getOk (storeAll fs [(str "a.nfo", str "/in/a.nfo"), (str "a.sfv", str "/in/a.sfv")]) []))
    (h4 : [str "/in/a.rar"].mapM (rarInput inWorld fs false (str "/in")) = .ok [⟨str "/in/a.rar", str "/in/a.rar", str "a.rar"⟩])
    (h5 : createVolumes fs false [] [⟨str "/in/a.rar", str "/in/a.rar", str "a.rar"⟩] =
      .ok (getOk (createVolumes fs false [] [⟨str "/in/a.rar", str "/in/a.rar", str "a.rar"⟩]) ([], []))) :
    UpTo exCreate inWorld 9 fs (str "/in/a.r00") where
  stored := [(str "a.nfo", str "/in/a.nfo"), (str "a.sfv", str "/in/a.sfv")]
  storedBytes := getOk (storeAll fs [(str "a.nfo", str "/in/a.nfo"), (str "a.sfv", str "/in/a.sfv")]) []
  before := [str "/in/a.rar"]
  after := []
  vols := [⟨str "/in/a.rar", str "/in/a.rar", str "a.rar"⟩]
  written := getOk (createVolumes fs false [] [⟨str "/in/a.rar", str "/in/a.rar", str "a.rar"⟩]) ([], [])
  header := getOk (mkSrrHeader (str "app")) []
  hheader := by decide +kernel
  hstored := h2
  hbytes := h3
  hrars := h1
  hvols := h4
  hwritten := h5

theorem gone_collect (fs : FS) (h : fs (str "/in/a.sfv") = some inSfv) :
    collect inWorld fs 9 [str "/in/a.sfv"] = .ok [str "/in/a.rar", str "/in/a.r00"] := by
  have e : str "/in/a" ++ str ".sfv" = str "/in/a.sfv" := by decide +kernel
  have := collect_sfv inWorld_ok (fs := fs) (fuel := 9) (base := str "/in/a") (data := inSfv) (by rw [e]; exact h)
  rw [e] at this
  rw [this, inSfv_volumes]

/-- The hypotheses of `create_missing_removed` hold. -/
theorem gone_removed : run (exCreate.prog inWorld 9 goneDisk (str "/o/a.srr") (str "/in") true) goneDisk [] =
    (FS.set goneDisk (str "/o/a.srr") none, .error .fileNotFound) :=
  create_missing_removed
    (exUpTo goneDisk (gone_collect _ (by decide +kernel)) (by rw [stored_exact inWorld_ok]; decide +kernel) (by decide +kernel)
      (by
        have e : basename (str "/in/a.rar") = str "a.rar" := by decide +kernel
        rw [rars_found (name := basename) (fun p hp => ?_)]
        · simp only [List.map_cons, List.map_nil, e]
        · simp only [List.mem_singleton] at hp
          subst hp
          exact ⟨inUsual.1, ⟨[str "a.sfv", str "a.r00", str "a.rar", str "a.nfo"], by decide +kernel, by decide +kernel, by decide +kernel⟩,
            by decide +kernel, rfl⟩)
      (by decide +kernel))
    inUsual.2 (names := [str "a.sfv", str "a.r00", str "a.rar", str "a.nfo"]) (by decide +kernel) (by decide +kernel) (by decide +kernel)

/-- The hypotheses of `create_damaged_left` hold: something is left. -/
theorem bad_left : ∃ c e, run (exCreate.prog inWorld 9 badDisk (str "/o/a.srr") (str "/in") true) badDisk [] =
    (FS.set badDisk (str "/o/a.srr") (some c), .error e) := by
  have hbad : ∃ e, readAll [0x52] = .error e := by
    cases h : readAll [0x52] with
    | error e => exact ⟨e, rfl⟩
    | ok b =>
      have : (readAll [0x52]).isOk = false := by decide +kernel
      rw [h] at this; cases this
  obtain ⟨e, he⟩ := hbad
  have hh : mkRarFile (str "a.r00") = .ok (getOk (mkRarFile (str "a.r00")) []) := by decide +kernel
  exact ⟨_, e, create_damaged_left
    (exUpTo badDisk (gone_collect _ (by decide +kernel)) (by rw [stored_exact inWorld_ok]; decide +kernel) (by decide +kernel)
      (by
        have e : basename (str "/in/a.rar") = str "a.rar" := by decide +kernel
        rw [rars_found (name := basename) (fun p hp => ?_)]
        · simp only [List.map_cons, List.map_nil, e]
        · simp only [List.mem_singleton] at hp
          subst hp
          exact ⟨inUsual.1, ⟨[str "a.sfv", str "a.r00", str "a.rar", str "a.nfo"], by decide +kernel, by decide +kernel, by decide +kernel⟩,
            by decide +kernel, rfl⟩)
      (by decide +kernel))
    inUsual.2 ⟨[str "a.sfv", str "a.r00", str "a.rar", str "a.nfo"], by decide +kernel, by decide +kernel, by decide +kernel⟩
    (data := [0x52]) (by decide +kernel) (name := str "a.r00") (by decide +kernel) hh he⟩

/-- The hypotheses of `create_writes_contents` hold. -/
theorem made_written : ∃ srr, run (exCreate.prog inWorld 9 inDisk (str "/o/a.srr") (str "/in") true) inDisk [] =
    (FS.set inDisk (str "/o/a.srr") (some srr), .ok ()) := by
  obtain ⟨srr, _, _, h, _⟩ := inRebuilt
  exact ⟨srr, create_writes_contents (a := exCreate) (w := inWorld) (fuel := 9) h⟩

end Rescene.Props
