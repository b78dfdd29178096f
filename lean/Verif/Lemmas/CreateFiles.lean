import Verif.Model.CreateFiles
import Verif.Lemmas.Faults
import Verif.Lemmas.StreamSrs
/-
`create_srr` on the file system.
-/
namespace Rescene
open Spec

/-! ### Programs that only touch one file -/

/-- The access is to this file, or only reads. -/
def Act.at (p : Path) : Act → Prop
  | .read _ => True
  | .create q => q = p
  | .write q _ => q = p
  | .close _ => True
  | .unlink q => q = p
  | .rename _ _ => False

/-- All accesses are to this file, or only read. -/
def OnlyAt (p : Path) : Prog → Prop
  | .done _ => True
  | .act a ok fail => a.at p ∧ OnlyAt p ok ∧ ∀ e, OnlyAt p (fail e)

theorem step_at {p : Path} {a : Act} (h : a.at p) (fs : FS) (f : Fault) {q : Path} (hq : q ≠ p) : (step a fs f).1 q = fs q := by
  cases f with
  | some x =>
    obtain ⟨e, n⟩ := x
    cases a with
    | write r b => obtain rfl : r = p := h; simp [step, appendTo, FS.set, hq]
    | read _ => rfl
    | create _ => rfl
    | close _ => rfl
    | unlink _ => rfl
    | rename _ _ => rfl
  | none =>
    cases a with
    | write r b => obtain rfl : r = p := h; simp [step, appendTo, FS.set, hq]
    | read _ => rfl
    | create r => obtain rfl : r = p := h; simp [step, FS.set, hq]
    | close _ => rfl
    | unlink r =>
      obtain rfl : r = p := h
      simp only [step]
      split <;> simp [FS.set, hq]
    | rename _ _ => cases h

theorem run_at {p : Path} {c : Prog} (h : OnlyAt p c) (fs : FS) (faults : List Fault) {q : Path} (hq : q ≠ p) :
    (run c fs faults).1 q = fs q := by
  induction c generalizing fs faults with
  | done r => rfl
  | act a ok fail ih1 ih2 =>
    unfold run
    have hs := step_at h.1 fs (faults.headD none) hq
    cases hst : step a fs (faults.headD none) with
    | mk fs' o =>
      rw [hst] at hs
      cases o with
      | none => rw [← hs]; exact ih1 h.2.1 fs' faults.tail
      | some e => rw [← hs]; exact ih2 e (h.2.2 e) fs' faults.tail

theorem moment_at {may : Act → Bool} {p : Path} {c : Prog} (h : OnlyAt p c) {fs m : FS} (hm : Moment may c fs m) {q : Path} (hq : q ≠ p) :
    m q = fs q := by
  induction hm with
  | now => rfl
  | writing =>
    obtain ⟨h1, _, _⟩ := h
    simp only [Act.at] at h1
    subst h1
    simp [appendTo, FS.set, hq]
  | @step a ok fail fs fs' m hs _ ih =>
    have := step_at h.1 fs none hq
    rw [hs] at this
    exact (ih h.2.1).trans this
  | @fail a ok fail fs f fs' e m hs _ _ ih =>
    have := step_at h.1 fs f hq
    rw [hs] at this
    exact (ih (h.2.2 e)).trans this

theorem writeChunks_at {src p : Path} {cs : List (Res Bytes)} {k : Prog} {h : Err → Prog} (hk : OnlyAt p k) (hh : ∀ e, OnlyAt p (h e)) :
    OnlyAt p (writeChunks src p cs k h) := by
  induction cs with
  | nil => exact hk
  | cons x t ih =>
    cases x with
    | error e => exact hh e
    | ok b => exact ⟨trivial, ⟨rfl, ih, hh⟩, hh⟩

theorem closing_at (p : Path) (r : Res Unit) : OnlyAt p (closing p r) := ⟨trivial, trivial, fun _ => trivial⟩

theorem createProg_at (tmp src : Path) (allowed : Bool) (header : Res Bytes) (rest : Written Unit) :
    OnlyAt tmp (createProg tmp src allowed header rest) := by
  unfold createProg
  split
  · refine ⟨rfl, ?_, fun _ => trivial⟩
    cases header with
    | error e => exact trivial
    | ok h =>
      refine ⟨rfl, writeChunks_at ?_ (fun e => closing_at _ _), fun _ => trivial⟩
      rcases rest.res with ⟨e, b⟩ | u
      · cases b with
        | false => exact closing_at _ _
        | true => exact ⟨trivial, ⟨rfl, closing_at _ _, fun _ => closing_at _ _⟩, fun _ => closing_at _ _⟩
      · exact closing_at _ _
  · exact trivial

theorem faultsIn_all (c : Prog) (fs : FS) (faults : List Fault) : FaultsIn (fun _ => true) c fs faults := by
  induction c generalizing fs faults with
  | done r => exact trivial
  | act a ok fail ih1 ih2 =>
    unfold FaultsIn
    refine ⟨fun _ => rfl, ?_⟩
    split
    · exact ih1 _ _
    · exact ih2 _ _ _

/-! ### What is written -/

/-- The writing function does what the function that only returns the contents says. -/
def SameAs {α : Type} (t : Written α) (r : Res (Bytes × α)) : Prop :=
  match t.res with
  | .ok a => r = .ok (t.out.flatten, a)
  | .error _ => ∃ e, r = .error e

theorem SameAs.quiet {α : Type} {x : Res α} : SameAs (quiet x) (x.map fun a => ([], a)) := by
  unfold SameAs Rescene.quiet
  cases x with
  | ok a => rfl
  | error e => exact ⟨e, rfl⟩

theorem SameAs.emit {b : Bytes} : SameAs (emit b) (.ok (b, ())) := by
  simp [SameAs, Rescene.emit]

theorem SameAs.andThen {α β : Type} {t : Written α} {r : Res (Bytes × α)} {f : α → Written β} {g : α → Res (Bytes × β)}
    (h : SameAs t r) (hf : ∀ a, SameAs (f a) (g a)) :
    SameAs (t.andThen f) (do
      let x ← r
      let y ← g x.2
      return (x.1 ++ y.1, y.2)) := by
  unfold SameAs at h
  unfold Written.andThen
  cases ht : t.res with
  | error e =>
    rw [ht] at h
    obtain ⟨e', rfl⟩ := h
    exact ⟨e', rfl⟩
  | ok a =>
    rw [ht] at h
    subst h
    have ha := hf a
    unfold SameAs at ha ⊢
    dsimp only at ha ⊢
    cases hr : (f a).res with
    | error e =>
      rw [hr] at ha
      obtain ⟨e', ha⟩ := ha
      refine ⟨e', ?_⟩
      rw [ok_bind, ha]; rfl
    | ok b =>
      rw [hr] at ha
      dsimp only at ha
      rw [ok_bind, ha]
      simp

/-- With the same result, or another exception. -/
theorem SameAs.congr {α : Type} {t : Written α} {r r' : Res (Bytes × α)} (h : SameAs t r) (h1 : ∀ x, r = .ok x ↔ r' = .ok x) : SameAs t r' := by
  unfold SameAs at h ⊢
  cases ht : t.res with
  | error e =>
    rw [ht] at h
    obtain ⟨e, h⟩ := h
    cases hr : r' with
    | error e' => exact ⟨e', rfl⟩
    | ok x => rw [(h1 x).2 hr] at h; cases h
  | ok a =>
    rw [ht] at h
    exact (h1 _).1 h

theorem SameAs.removed {α : Type} {e e' : Err} : SameAs (removed e : Written α) (.error e') := ⟨e', rfl⟩

theorem map_eq_ok {α β : Type} {x : Res α} {f : α → β} {b : β} : x.map f = .ok b ↔ ∃ a, x = .ok a ∧ f a = b := by
  cases x with
  | ok a => simp [Except.map]
  | error e => simp [Except.map]

theorem writeStoredFiles_same (w : World) (fs : FS) (sp : Bool) (folder : Str) (l : List Path) :
    SameAs (writeStoredFiles w fs sp folder l)
      ((l.mapM fun p => do
        let name ← srrName w sp folder p
        return (name, p)) >>= fun stored => (storeAll fs stored).map fun s => (s, ())) := by
  induction l with
  | nil => exact SameAs.quiet.congr (by intro x; simp [List.mapM_nil, storeAll, Except.map])
  | cons p l ih =>
    unfold writeStoredFiles
    cases hp : fs p with
    | none =>
      refine (SameAs.quiet.andThen (fun name => SameAs.quiet)).congr ?_
      intro x
      simp only [bind_eq_ok, map_eq_ok, List.mapM_cons, pure_eq_ok, Except.ok.injEq]
      constructor
      · rintro ⟨_, _, _, ⟨_, h, _⟩, _⟩; cases h
      · rintro ⟨_, ⟨_, ⟨n, _, rfl⟩, _, _, rfl⟩, _, h, _⟩
        simp [storeAll, hp] at h
    | some data =>
      refine (SameAs.quiet.andThen (fun name => SameAs.quiet.andThen fun h => SameAs.emit.andThen fun _ => SameAs.emit.andThen fun _ => ih)).congr ?_
      intro x
      simp only [bind_eq_ok, map_eq_ok, List.mapM_cons, pure_eq_ok, Except.ok.injEq]
      constructor
      · rintro ⟨_, ⟨name, h1, rfl⟩, _, ⟨_, ⟨h, h2, rfl⟩, _, ⟨_, rfl, _, ⟨_, rfl, _, ⟨st, h3, s, h4, rfl⟩, rfl⟩, rfl⟩, rfl⟩, rfl⟩
        refine ⟨(name, p) :: st, ⟨_, ⟨name, h1, rfl⟩, st, h3, rfl⟩, h ++ (data ++ s), ?_, rfl⟩
        simp only [storeAll, hp, bind_eq_ok, pure_eq_ok, Except.ok.injEq]
        exact ⟨h, h2, s, h4, rfl⟩
      · rintro ⟨_, ⟨_, ⟨name, h1, rfl⟩, st, h3, rfl⟩, s, h4, rfl⟩
        simp only [storeAll, hp, bind_eq_ok, pure_eq_ok, Except.ok.injEq] at h4
        obtain ⟨h, h2, s', h4, rfl⟩ := h4
        exact ⟨_, ⟨name, h1, rfl⟩, _, ⟨_, ⟨h, h2, rfl⟩, _, ⟨_, rfl, _, ⟨_, rfl, _, ⟨st, h3, s', h4, rfl⟩, rfl⟩, rfl⟩, rfl⟩, rfl⟩

theorem writeOneBlock_same (compressed : Bool) (rar : Path) (oso : List (Str × Path)) (b : Block) :
    SameAs (writeOneBlock compressed rar oso b) ((createBlock compressed rar oso b).map fun o => (b.raw, o)) := by
  have hq : SameAs ((quiet (createBlock compressed rar oso b)).andThen fun oso => (emit b.raw).andThen fun _ => quiet (.ok oso))
      ((createBlock compressed rar oso b).map fun o => (b.raw, o)) := by
    refine (SameAs.quiet.andThen fun o => SameAs.emit.andThen fun _ => SameAs.quiet).congr ?_
    intro x
    simp only [bind_eq_ok, map_eq_ok, pure_eq_ok, Except.ok.injEq]
    constructor
    · rintro ⟨_, ⟨o, h1, rfl⟩, _, ⟨_, rfl, _, ⟨_, rfl, rfl⟩, rfl⟩, rfl⟩
      exact ⟨o, h1, by simp⟩
    · rintro ⟨o, h1, rfl⟩
      exact ⟨_, ⟨o, h1, rfl⟩, _, ⟨_, rfl, _, ⟨_, rfl, rfl⟩, rfl⟩, by simp⟩
  unfold writeOneBlock
  split
  · rename_i f hk
    split
    · rename_i h
      refine (SameAs.removed (e' := .valueError)).congr ?_
      intro x
      simp [createBlock, h.1, hk, h.2.1, h.2.2, Except.map]
    · exact hq
  · exact hq

theorem writeAllBlocks_same (compressed : Bool) (rar : Path) (oso : List (Str × Path)) (l : List Block) :
    SameAs (writeAllBlocks compressed rar oso l) (createBlocks compressed rar oso l) := by
  induction l generalizing oso with
  | nil => exact SameAs.quiet.congr (by intro x; simp [createBlocks, Except.map])
  | cons b l ih =>
    refine ((writeOneBlock_same compressed rar oso b).andThen fun o => ih o).congr ?_
    intro x
    simp only [createBlocks, bind_eq_ok, map_eq_ok, pure_eq_ok, Except.ok.injEq]
    constructor
    · rintro ⟨_, ⟨o, h1, rfl⟩, y, h2, rfl⟩; exact ⟨o, h1, y, h2, rfl⟩
    · rintro ⟨o, h1, y, h2, rfl⟩; exact ⟨_, ⟨o, h1, rfl⟩, y, h2, rfl⟩

theorem writeAllVolumes_same (w : World) (fs : FS) (sp : Bool) (folder : Str) (compressed : Bool) (oso : List (Str × Path)) (l : List Path) :
    SameAs (writeAllVolumes w fs sp folder compressed oso l)
      (l.mapM (rarInput w fs sp folder) >>= fun vols => createVolumes fs compressed oso vols) := by
  induction l generalizing oso with
  | nil => exact SameAs.quiet.congr (by intro x; simp [createVolumes, Except.map])
  | cons r l ih =>
    have hv : SameAs (writeOneVolume w fs sp folder compressed oso r) (do
        let v ← rarInput w fs sp folder r
        match fs v.exact with
        | none => .error .fileNotFound
        | some data => do
          let hdr ← mkRarFile v.name
          let blocks ← readAll data
          let (raws, oso) ← createBlocks compressed v.rar oso blocks
          return (hdr ++ raws, oso)) := by
      unfold writeOneVolume
      refine (SameAs.quiet.andThen (g := fun x => match fs x.1 with
        | none => .error .fileNotFound
        | some data => do
          let name ← srrName w sp folder x.2
          let hdr ← mkRarFile name
          let blocks ← readAll data
          let (raws, oso) ← createBlocks compressed r oso blocks
          return (hdr ++ raws, oso)) fun x => ?_).congr ?_
      · cases hx : fs x.1 with
        | none => exact SameAs.removed
        | some data =>
          dsimp only
          refine (SameAs.quiet.andThen fun name => SameAs.quiet.andThen fun h => SameAs.emit.andThen fun _ =>
            SameAs.quiet.andThen fun blocks => writeAllBlocks_same compressed r oso blocks).congr ?_
          intro y
          simp only [bind_eq_ok, map_eq_ok, pure_eq_ok, Except.ok.injEq]
          constructor
          · rintro ⟨_, ⟨n, h1, rfl⟩, _, ⟨_, ⟨h, h2, rfl⟩, _, ⟨_, rfl, _, ⟨_, ⟨bs, h3, rfl⟩, y, h4, rfl⟩, rfl⟩, rfl⟩, rfl⟩
            exact ⟨n, h1, h, h2, bs, h3, y, h4, rfl⟩
          · rintro ⟨n, h1, h, h2, bs, h3, y, h4, rfl⟩
            exact ⟨_, ⟨n, h1, rfl⟩, _, ⟨_, ⟨h, h2, rfl⟩, _, ⟨_, rfl, _, ⟨_, ⟨bs, h3, rfl⟩, y, h4, rfl⟩, rfl⟩, rfl⟩, rfl⟩
      · intro y
        simp only [rarInput, bind_eq_ok, map_eq_ok, pure_eq_ok, Except.ok.injEq]
        constructor
        · rintro ⟨_, ⟨x, h1, rfl⟩, z, h2, rfl⟩
          dsimp only at h2
          cases hx : fs x.1 with
          | none => simp [hx] at h2
          | some data =>
            simp only [hx, bind_eq_ok, pure_eq_ok, Except.ok.injEq] at h2
            obtain ⟨n, h2, h, h3, bs, h4, u, h5, rfl⟩ := h2
            refine ⟨⟨r, x.1, n⟩, ⟨x, h1, ?_⟩, ?_⟩
            · simp [hx, h2]
            · simp [hx, h3, h4, h5]
        · rintro ⟨v, ⟨x, h1, h2⟩, h3⟩
          refine ⟨_, ⟨x, h1, rfl⟩, ?_⟩
          cases hx : fs x.1 with
          | none => simp [hx, throw_eq_error] at h2
          | some data =>
            simp only [hx, Option.isNone_some, Bool.false_eq_true, if_false, bind_eq_ok, pure_eq_ok, Except.ok.injEq] at h2
            obtain ⟨n, h2, rfl⟩ := h2
            simp only [hx, bind_eq_ok, pure_eq_ok, Except.ok.injEq] at h3
            obtain ⟨h, h3, bs, h4, u, h5, rfl⟩ := h3
            refine ⟨(h ++ u.1, u.2), ?_, by simp⟩
            simp [hx, h2, h3, h4, h5]
    refine (hv.andThen fun o => ih o).congr ?_
    intro x
    simp only [List.mapM_cons, bind_eq_ok, pure_eq_ok, Except.ok.injEq]
    constructor
    · rintro ⟨y, ⟨v, h1, h2⟩, z, ⟨vols, h3, h4⟩, rfl⟩
      refine ⟨v :: vols, ⟨v, h1, vols, h3, rfl⟩, ?_⟩
      cases hx : fs v.exact with
      | none => simp [hx] at h2
      | some data =>
        simp only [hx, bind_eq_ok, pure_eq_ok, Except.ok.injEq] at h2
        obtain ⟨h, h5, bs, h6, u, h7, rfl⟩ := h2
        simp [createVolumes, hx, h5, h6, h7, h4]
    · rintro ⟨_, ⟨v, h1, vols, h3, rfl⟩, h2⟩
      cases hx : fs v.exact with
      | none => simp [createVolumes, hx] at h2
      | some data =>
        simp only [createVolumes, hx, bind_eq_ok, pure_eq_ok, Except.ok.injEq] at h2
        obtain ⟨h, h5, bs, h6, u, h7, z, h8, rfl⟩ := h2
        refine ⟨(h ++ u.1, u.2), ⟨v, h1, ?_⟩, z, ⟨vols, h3, h8⟩, by simp⟩
        simp [hx, h5, h6, h7]

/-- Everything after the header. -/
theorem writeRest_same (w : World) (fuel : Nat) (fs : FS) (app : Str) (infiles : List Path) (folder : Str) (store : List Path)
    (sp compressed oso : Bool) :
    match (writeRest w fuel fs infiles folder store sp compressed oso).res, mkSrrHeader app with
    | .ok _, .ok h => createFrom w fuel fs app infiles folder store sp compressed oso =
        .ok (h ++ (writeRest w fuel fs infiles folder store sp compressed oso).out.flatten)
    | _, _ => ∃ e, createFrom w fuel fs app infiles folder store sp compressed oso = .error e := by
  have hs := (writeStoredFiles_same w fs sp folder (search w.all (fun p => (fs p).isSome) (storeList w infiles store) folder)).andThen
    (fun _ => (SameAs.quiet (x := collect w fs fuel infiles)).andThen fun rars =>
      (writeAllVolumes_same w fs sp folder compressed [] rars).andThen fun dict =>
      (SameAs.quiet (x := if oso then osoPieces w.dig w.lower fs fuel dict else .ok [])).andThen fun o => SameAs.emit (b := o))
  change SameAs (writeRest w fuel fs infiles folder store sp compressed oso) _ at hs
  cases hr : (writeRest w fuel fs infiles folder store sp compressed oso).res with
  | ok u =>
    unfold SameAs at hs
    rw [hr] at hs
    simp only [bind_eq_ok, map_eq_ok, pure_eq_ok, Except.ok.injEq] at hs
    obtain ⟨_, ⟨st, h1, s, h2, rfl⟩, _, ⟨_, ⟨rars, h3, rfl⟩, _, ⟨v, ⟨vols, h4, h5⟩, _, ⟨_, ⟨o, h6, rfl⟩, _, rfl, rfl⟩, rfl⟩, rfl⟩, hx⟩ := hs
    simp only [Prod.mk.injEq, List.nil_append] at hx
    have hst : storedInput w fs sp folder infiles store = .ok st := by
      unfold storedInput
      simpa only [bind_eq_ok, pure_eq_ok, Except.ok.injEq] using h1
    cases hh : mkSrrHeader app with
    | error e =>
      refine ⟨e, ?_⟩
      simp [createFrom, hst, h3, h4, createSrr, hh]
    | ok h =>
      simp only [createFrom, hst, h3, h4, createSrr, hh, h2, h5, ok_bind, h6, pure_eq_ok]
      rw [← hx.1]
  | error e =>
    unfold SameAs at hs
    rw [hr] at hs
    obtain ⟨e', hs⟩ := hs
    cases hc : createFrom w fuel fs app infiles folder store sp compressed oso with
    | error e' => exact ⟨e', rfl⟩
    | ok srr =>
      exfalso
      simp only [createFrom, createSrr, bind_eq_ok, pure_eq_ok, Except.ok.injEq, storedInput] at hc
      obtain ⟨st, h1, rars, h3, vols, h4, h, hh, s, h2, v, h5, o, h6, rfl⟩ := hc
      have : ∀ r : Res (Bytes × Unit), r = .ok (s ++ (v.1 ++ o), ()) → r = .error e' → False := by
        rintro r rfl h; cases h
      refine this _ ?_ hs
      simp only [bind_eq_ok, map_eq_ok, pure_eq_ok, Except.ok.injEq]
      exact ⟨_, ⟨st, h1, s, h2, rfl⟩, _, ⟨_, ⟨rars, h3, rfl⟩, _, ⟨v, ⟨vols, h4, h5⟩, _, ⟨_, ⟨o, h6, rfl⟩, _, rfl, rfl⟩, rfl⟩, rfl⟩, by simp⟩

end Rescene
