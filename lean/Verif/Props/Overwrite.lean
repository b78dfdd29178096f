import Verif.Props.Paths
import Verif.Lemmas.Faults
import Verif.Props.ReconstructExample
/-
C56: the files reconstruction touches.  C57: compressed archives.
-/
namespace Rescene.Props
open Rescene Rescene.Spec

/-- `p` was not touched, and is not being written. -/
structure Untouched (p : Path) (fs : FS) (s : RecState) : Prop where
  same : s.fs p = fs p
  closed : s.out ≠ some p

/-- A path that must not be written: it is not the path of a volume or stored file, or there is a
file and the answer is no. -/
def Protected (a : RecArgs) (fs : FS) (p : Path) : Prop :=
  (∀ name, opath name a.extractPaths a.outFolder ≠ .ok p) ∨ ((fs p).isSome = true ∧ a.ask p = false)

theorem protected_out {a : RecArgs} {fs : FS} {p out : Path} {name : Str} {s : RecState} (hp : Protected a fs p) (h : Untouched p fs s)
    (ho : opath name a.extractPaths a.outFolder = .ok out) (hc : ((s.fs out).isNone || a.ask out) = true) : p ≠ out := by
  rintro rfl
  rcases hp with hp | ⟨h1, h2⟩
  · exact hp name ho
  · rw [h2, Bool.or_false, h.same] at hc
    cases hf : fs p with
    | none => rw [hf] at h1; simp at h1
    | some d => rw [hf] at hc; simp at hc

theorem write_untouched {p : Path} {fs : FS} {s s' : RecState} {b : Bytes} (h : Untouched p fs s) (hw : s.write b = .ok s') :
    Untouched p fs s' := by
  unfold RecState.write at hw
  cases ho : s.out with
  | none => rw [ho] at hw; simp at hw
  | some q =>
    rw [ho] at hw
    simp only [Except.ok.injEq] at hw
    subst hw
    have hne : p ≠ q := fun hc => h.closed (by rw [ho, hc])
    refine ⟨?_, by rw [← ho]; exact h.closed⟩
    show appendTo s.fs q b p = _
    unfold appendTo
    rw [FS.set_ne _ _ hne]
    exact h.same

theorem other_untouched {a : RecArgs} {p : Path} {fs : FS} {s s' : RecState} {b : Block} (h : Untouched p fs s)
    (hr : recOther a s b = .ok s') : Untouched p fs s' := by
  unfold recOther at hr
  rw [bind_eq_ok] at hr
  obtain ⟨r, _, hr⟩ := hr
  split at hr
  · unfold recRecovery at hr
    rw [bind_eq_ok] at hr
    obtain ⟨⟨rs, ds⟩, _, hr⟩ := hr
    dsimp only at hr
    split at hr
    · split at hr
      · simp at hr
      · rw [bind_eq_ok] at hr
        obtain ⟨more, _, hr⟩ := hr
        exact write_untouched h hr
    · exact write_untouched h hr
  · split at hr
    · split at hr
      · unfold recFile at hr
        split at hr
        · simp only [Except.ok.injEq] at hr
          subst hr
          exact ⟨h.same, h.closed⟩
        · simp only [bind_eq_ok] at hr
          obtain ⟨s1, h1, s2, h2, h3⟩ := hr
          have u1 := write_untouched h h1
          have u2 : Untouched p fs s2 := by
            unfold recOpen at h2
            split at h2
            · simp only [bind_eq_ok, pure_eq_ok, Except.ok.injEq] at h2
              obtain ⟨src, _, rfl⟩ := h2
              exact ⟨u1.same, u1.closed⟩
            · simp only [Except.ok.injEq] at h2
              subst h2
              exact u1
          unfold recData at h3
          split at h3
          · simp at h3
          · simp only [bind_eq_ok, pure_eq_ok, Except.ok.injEq] at h3
            obtain ⟨src, _, x, _, s3, h3, rfl⟩ := h3
            have u3 := write_untouched u2 h3
            exact ⟨u3.same, u3.closed⟩
      · simp at hr
    · split at hr
      · split at hr
        · exact write_untouched h hr
        · simp only [pure_eq_ok, Except.ok.injEq] at hr; subst hr; exact h
      · split at hr
        · simp only [pure_eq_ok, Except.ok.injEq] at hr; subst hr; exact h
        · split at hr
          · split at hr
            · exact write_untouched h hr
            · simp only [pure_eq_ok, Except.ok.injEq] at hr; subst hr; exact h
          · simp only [pure_eq_ok, Except.ok.injEq] at hr; subst hr; exact h

theorem stored_untouched {a : RecArgs} {p : Path} {fs : FS} {s s' : RecState} {b : Block} (hp : Protected a fs p) (h : Untouched p fs s)
    (hr : recStored a s b = .ok s') : Untouched p fs s' := by
  unfold recStored at hr
  split at hr
  · split at hr
    · rw [bind_eq_ok] at hr
      obtain ⟨out, ho, hr⟩ := hr
      unfold extractOne at hr
      by_cases hc : ((s.fs out).isNone || a.ask out) = true
      · rw [if_pos hc] at hr
        have hne := protected_out hp h ho hc
        dsimp only at hr
        split at hr
        · simp at hr
        · rename_i heq
          simp only [pure_eq_ok, Except.ok.injEq] at hr
          subst hr
          refine ⟨?_, h.closed⟩
          show _ = fs p
          split at heq
          · simp at heq
          · split at heq
            · simp at heq
            · simp only [Prod.mk.injEq] at heq
              rw [← heq.1]
              dsimp only
              rw [FS.set_ne _ _ hne, FS.set_ne _ _ hne]
              exact h.same
      · rw [if_neg hc] at hr
        dsimp only at hr
        simp only [pure_eq_ok, Except.ok.injEq] at hr
        subst hr
        exact ⟨h.same, h.closed⟩
    · simp at hr
  · simp only [Except.ok.injEq] at hr; subst hr; exact h

theorem volume_untouched {a : RecArgs} {p : Path} {fs : FS} {s s' : RecState} {b : Block} {name : Str} {go : Bool} (hp : Protected a fs p)
    (h : Untouched p fs s) (hr : recVolume a s b name = .ok (s', go)) : Untouched p fs s' := by
  unfold recVolume at hr
  dsimp only at hr
  split at hr
  · rw [bind_eq_ok] at hr
    obtain ⟨out, ho, hr⟩ := hr
    split at hr
    · rename_i hc
      simp only [pure_eq_ok, Except.ok.injEq, Prod.mk.injEq] at hr
      obtain ⟨hr, _⟩ := hr
      subst hr
      have hne := protected_out hp h ho hc
      refine ⟨?_, ?_⟩
      · show FS.set s.fs out (some []) p = _
        rw [FS.set_ne _ _ hne]; exact h.same
      · show some out ≠ some p
        intro hc; exact hne (by simpa using hc.symm)
    · simp only [pure_eq_ok, Except.ok.injEq, Prod.mk.injEq] at hr
      obtain ⟨hr, _⟩ := hr
      subst hr
      exact ⟨h.same, h.closed⟩
  · simp only [pure_eq_ok, Except.ok.injEq, Prod.mk.injEq] at hr
    obtain ⟨hr, _⟩ := hr
    subst hr
    exact ⟨h.same, h.closed⟩

theorem block_untouched {a : RecArgs} {p : Path} {fs : FS} {s s' : RecState} {b : Block} {go : Bool} (hp : Protected a fs p)
    (h : Untouched p fs s) (hr : recBlock a s b = .ok (s', go)) : Untouched p fs s' := by
  unfold recBlock at hr
  split at hr
  · split at hr
    · simp only [Except.ok.injEq, Prod.mk.injEq] at hr
      rw [← hr.1]; exact h
    · simp at hr
  · split at hr
    · simp only [bind_eq_ok, pure_eq_ok, Except.ok.injEq, Prod.mk.injEq] at hr
      obtain ⟨s1, h1, rfl, _⟩ := hr
      exact stored_untouched hp h h1
    · split at hr
      · split at hr
        · exact volume_untouched hp h hr
        · simp at hr
      · simp only [bind_eq_ok, pure_eq_ok, Except.ok.injEq, Prod.mk.injEq] at hr
        obtain ⟨s1, h1, rfl, _⟩ := hr
        exact other_untouched h h1

theorem loop_untouched {a : RecArgs} {p : Path} {fs : FS} (hp : Protected a fs p) (bs : List Block) : ∀ {s s' : RecState} {go : Bool},
    Untouched p fs s → recLoop a s bs = .ok (s', go) → Untouched p fs s' := by
  induction bs with
  | nil =>
    intro s s' go h hr
    simp only [recLoop, Except.ok.injEq, Prod.mk.injEq] at hr
    rw [← hr.1]; exact h
  | cons b t ih =>
    intro s s' go h hr
    rw [recLoop, bind_eq_ok] at hr
    obtain ⟨⟨s1, go1⟩, h1, hr⟩ := hr
    have u := block_untouched hp h h1
    dsimp only at hr
    split at hr
    · exact ih u hr
    · simp only [pure_eq_ok, Except.ok.injEq, Prod.mk.injEq] at hr
      rw [← hr.1]; exact u

/-- C56: reconstruction leaves alone every existing file for which the application does not
allow overwriting. -/
theorem reconstruct_never_overwrites {a : RecArgs} {fs fs' : FS} {reports : List CrcReport} {go : Bool} {p : Path} {content : Bytes}
    (h : reconstruct a fs = .ok (fs', reports, go)) (hp : fs p = some content) (hask : a.ask p = false) : fs' p = some content := by
  unfold reconstruct at h
  split at h
  · simp at h
  · simp only [bind_eq_ok, pure_eq_ok, Except.ok.injEq, Prod.mk.injEq] at h
    obtain ⟨blocks, _, x, hx, h1, _⟩ := h
    have := loop_untouched (p := p) (fs := fs) (Or.inr ⟨by rw [hp]; rfl, hask⟩) blocks ⟨rfl, by simp⟩ hx
    rw [← h1, this.same, hp]

/-- C56: whatever the SRR contains, all files that are made or changed lie below the output
folder: the path denotes its place followed by plain elements only. -/
theorem reconstruct_stays_below {a : RecArgs} {fs fs' : FS} {reports : List CrcReport} {go : Bool} {p : Path}
    (h : reconstruct a fs = .ok (fs', reports, go)) (hp : fs' p ≠ fs p) (cwd : List Str) :
    ∃ rel : List Str, rel ≠ [] ∧ (∀ c ∈ rel, PlainElem c) ∧ place cwd p = place cwd a.outFolder ++ rel := by
  have hname : ∃ name, opath name a.extractPaths a.outFolder = .ok p := by
    apply Classical.byContradiction
    intro hne
    unfold reconstruct at h
    split at h
    · simp at h
    · simp only [bind_eq_ok, pure_eq_ok, Except.ok.injEq, Prod.mk.injEq] at h
      obtain ⟨blocks, _, x, hx, h1, _⟩ := h
      have := loop_untouched (p := p) (fs := fs) (Or.inl fun n hn => hne ⟨n, hn⟩) blocks ⟨rfl, by simp⟩ hx
      exact hp (by rw [← h1, this.same])
  obtain ⟨name, hn⟩ := hname
  obtain ⟨rel, r1, r2, r3, _⟩ := extraction_stays_below hn cwd
  exact ⟨rel, r1, r2, r3⟩

/-- C56: when overwriting a volume is not allowed, reconstruction stops there and reports it. -/
theorem reconstruct_refused {a : RecArgs} {s : RecState} {b : Block} {name : Str} {out : Path} {t : List Block} {content : Bytes}
    (hb : b.btype = 0x71) (hk : b.kind = .rarFile name) (hpart : a.part = []) (hn : s.rarName ≠ name)
    (ho : opath name a.extractPaths a.outFolder = .ok out) (hf : s.fs out = some content) (hask : a.ask out = false) :
    ∃ s', recLoop a s (b :: t) = .ok (s', false) ∧ s'.fs = s.fs := by
  have hs : skipped a name = false := by unfold skipped; simp [hpart]
  rw [recLoop]
  have : recBlock a s b = recVolume a s b name := by
    unfold recBlock
    rw [if_neg (by omega), if_neg (by omega), if_pos hb, hk]
  rw [this]
  unfold recVolume
  dsimp only
  rw [if_pos ⟨hn, hs⟩, ho, ok_bind, if_neg (by rw [hf, hask]; simp), pure_eq_ok, ok_bind]
  exact ⟨_, rfl, rfl⟩

/-- The reconstruction example leaves the file `x` alone. -/
example : ∃ srr fs2 reports go, exCreated = .ok srr ∧ reconstruct exArgs (exDisk1 srr) = .ok (fs2, reports, go) ∧
    fs2 (str "/r/x") = some [1, 2, 3, 4, 5] := by
  obtain ⟨srr, fs2, reports, h1, h2, _⟩ := exRebuilt
  refine ⟨srr, fs2, reports, true, h1, h2, reconstruct_never_overwrites h2 ?_ rfl⟩
  unfold exDisk1
  rw [if_neg (by decide +kernel), if_pos rfl]

theorem blocks_stored {compressed : Bool} {rar : Path} {bs : List Block} : ∀ {oso : List (Str × Path)} {x : Bytes × List (Str × Path)},
    createBlocks compressed rar oso bs = .ok x →
    (createBlocks true rar oso bs = .ok x) ∧
    (compressed = false → ∀ b ∈ bs, ∀ f, b.btype = 0x74 → b.kind = .packed f → f.method = 0x30) := by
  induction bs with
  | nil => intro oso x h; exact ⟨h, by simp⟩
  | cons b t ih =>
    intro oso x h
    rw [createBlocks, bind_eq_ok] at h
    obtain ⟨o1, h1, h⟩ := h
    rw [bind_eq_ok] at h
    obtain ⟨y, h2, h⟩ := h
    obtain ⟨i1, i2⟩ := ih h2
    have hb : createBlock true rar oso b = .ok o1 := by
      unfold createBlock at h1 ⊢
      split
      · rename_i c
        rw [if_pos c] at h1
        split at h1
        · split at h1
          · rename_i hm
            split at h1
            · rw [if_pos hm]; simpa using h1
            · simp at h1
          · rename_i hm; rw [if_neg hm]; exact h1
        · simp at h1
      · rename_i c
        rw [if_neg c] at h1
        exact h1
    refine ⟨?_, ?_⟩
    · rw [createBlocks, hb, ok_bind, i1, ok_bind]; exact h
    · intro hc b' hb' f ht hk
      rcases List.mem_cons.mp hb' with rfl | hb'
      · subst hc
        unfold createBlock at h1
        rw [if_pos ht, hk] at h1
        dsimp only at h1
        apply Classical.byContradiction
        intro hm
        rw [if_pos hm] at h1
        simp at h1
      · exact i2 hc b' hb' f ht hk

theorem volumes_stored {fs : FS} {compressed : Bool} {rars : List RarIn} : ∀ {oso : List (Str × Path)} {x : Bytes × List (Str × Path)},
    createVolumes fs compressed oso rars = .ok x →
    createVolumes fs true oso rars = .ok x ∧
    (compressed = false → ∀ v ∈ rars, ∃ data blocks, fs v.exact = some data ∧ readAll data = .ok blocks ∧
      ∀ b ∈ blocks, ∀ f, b.btype = 0x74 → b.kind = .packed f → f.method = 0x30) := by
  induction rars with
  | nil => intro oso x h; exact ⟨h, by simp⟩
  | cons v t ih =>
    intro oso x h
    rw [createVolumes] at h
    split at h
    · simp at h
    · rename_i data hd
      simp only [bind_eq_ok] at h
      obtain ⟨hdr, h1, blocks, h2, y, h3, z, h4, h5⟩ := h
      obtain ⟨b1, b2⟩ := blocks_stored h3
      obtain ⟨i1, i2⟩ := ih h4
      refine ⟨?_, ?_⟩
      · rw [createVolumes, hd]
        dsimp only
        rw [h1, ok_bind, h2, ok_bind, b1, ok_bind, i1, ok_bind]
        exact h5
      · intro hc w hw
        rcases List.mem_cons.mp hw with rfl | hw
        · exact ⟨data, blocks, hd, h2, b2 hc⟩
        · exact i2 hc w hw

/-- C57: without `compressed` an SRR is only created when every file in every volume is stored. -/
theorem create_stored_only {dig : Nat → Bool} {lower : Str → Str} {fuel : Nat} {fs : FS} {app : Str}
    {stored : List (Str × Path)} {rars : List RarIn} {oso : Bool} {srr : Bytes}
    (h : createSrr dig lower fuel fs app stored rars false oso = .ok srr) :
    ∀ v ∈ rars, ∃ data blocks, fs v.exact = some data ∧ readAll data = .ok blocks ∧
      ∀ b ∈ blocks, ∀ f, b.btype = 0x74 → b.kind = .packed f → f.method = 0x30 := by
  unfold createSrr at h
  simp only [bind_eq_ok] at h
  obtain ⟨_, _, _, _, x, hx, _⟩ := h
  exact (volumes_stored hx).2 rfl

/-- C57: for stored files `compressed` makes no difference. -/
theorem create_compressed_same {dig : Nat → Bool} {lower : Str → Str} {fuel : Nat} {fs : FS} {app : Str}
    {stored : List (Str × Path)} {rars : List RarIn} {oso : Bool} {srr : Bytes}
    (h : createSrr dig lower fuel fs app stored rars false oso = .ok srr) :
    createSrr dig lower fuel fs app stored rars true oso = .ok srr := by
  unfold createSrr at h ⊢
  simp only [bind_eq_ok] at h
  obtain ⟨hd, h1, s, h2, x, h3, o, h4, h5⟩ := h
  rw [h1, ok_bind, h2, ok_bind, (volumes_stored h3).1, ok_bind]
  dsimp only
  rw [h4, ok_bind]
  exact h5

/-- Is this the header of a file that is not stored? -/
def isCompressed (b : Block) : Bool :=
  match b.kind with
  | .packed f => b.btype == 0x74 && f.method != 0x30
  | _ => false

theorem blocks_compressed {rar : Path} {bs : List Block} : ∀ {oso : List (Str × Path)} {x : Bytes × List (Str × Path)},
    createBlocks true rar oso bs = .ok x →
    createBlocks false rar oso bs = if bs.any isCompressed = true then .error .valueError else .ok x := by
  induction bs with
  | nil => intro oso x h; exact h
  | cons b t ih =>
    intro oso x h
    rw [createBlocks, bind_eq_ok] at h
    obtain ⟨o1, h1, h⟩ := h
    rw [bind_eq_ok] at h
    obtain ⟨y, h2, h⟩ := h
    have i1 := ih h2
    rw [createBlocks, List.any_cons]
    have hb : createBlock false rar oso b = if isCompressed b = true then .error .valueError else .ok o1 := by
      unfold createBlock at h1 ⊢
      unfold isCompressed
      by_cases c : b.btype = 0x74
      · rw [if_pos c] at h1 ⊢
        cases hk : b.kind with
        | packed f =>
          rw [hk] at h1
          dsimp only at h1 ⊢
          by_cases hm : f.method = 0x30
          · rw [if_neg (by simpa using hm)] at h1 ⊢
            rw [h1, if_neg (by simp [hm])]
          · rw [if_pos hm, if_neg (by simp), if_pos (by simp [hm, c])]
        | _ => rw [hk] at h1; simp at h1
      · rw [if_neg c] at h1 ⊢
        rw [h1]
        split <;> simp [c]
    rw [hb]
    cases isCompressed b with
    | true => simp
    | false =>
      simp only [Bool.false_eq_true, if_false, ok_bind, Bool.false_or, i1]
      cases t.any isCompressed with
      | true => simp
      | false => simpa using h

theorem volumes_compressed {fs : FS} {rars : List RarIn} : ∀ {oso : List (Str × Path)} {x : Bytes × List (Str × Path)},
    createVolumes fs true oso rars = .ok x →
    (∃ v ∈ rars, ∃ data blocks, fs v.exact = some data ∧ readAll data = .ok blocks ∧ blocks.any isCompressed = true) →
    createVolumes fs false oso rars = .error .valueError := by
  induction rars with
  | nil => intro oso x _ h; simp at h
  | cons v t ih =>
    intro oso x h hc
    rw [createVolumes] at h ⊢
    cases hd : fs v.exact with
    | none => rw [hd] at h; simp at h
    | some data =>
      rw [hd] at h
      simp only [bind_eq_ok] at h
      obtain ⟨hdr, h1, blocks, h2, y, h3, z, h4, h5⟩ := h
      dsimp only
      rw [h1, ok_bind, h2, ok_bind, blocks_compressed h3]
      by_cases hb : blocks.any isCompressed = true
      · rw [if_pos hb]; rfl
      · rw [if_neg hb, ok_bind]
        obtain ⟨w, hw, d, bs, w1, w2, w3⟩ := hc
        rcases List.mem_cons.mp hw with rfl | hw
        · rw [hd] at w1
          simp only [Option.some.injEq] at w1
          subst w1
          rw [h2] at w2
          simp only [Except.ok.injEq] at w2
          subst w2
          exact absurd w3 hb
        · rw [ih h4 ⟨w, hw, d, bs, w1, w2, w3⟩]
          rfl

/-- C57: an SRR that can be created with `compressed` is refused with a ValueError without it when
some file is not stored. -/
theorem create_compressed_refused {dig : Nat → Bool} {lower : Str → Str} {fuel : Nat} {fs : FS} {app : Str}
    {stored : List (Str × Path)} {rars : List RarIn} {oso : Bool} {srr : Bytes}
    (h : createSrr dig lower fuel fs app stored rars true oso = .ok srr)
    (hc : ∃ v ∈ rars, ∃ data blocks, fs v.exact = some data ∧ readAll data = .ok blocks ∧
      ∃ b ∈ blocks, ∃ f, b.btype = 0x74 ∧ b.kind = .packed f ∧ f.method ≠ 0x30) :
    createSrr dig lower fuel fs app stored rars false oso = .error .valueError := by
  unfold createSrr at h ⊢
  simp only [bind_eq_ok] at h
  obtain ⟨hd, h1, s, h2, x, h3, o, h4, h5⟩ := h
  obtain ⟨v, v1, data, blocks, v2, v3, b, b1, f, b2, b3, b4⟩ := hc
  rw [h1, ok_bind, h2, ok_bind, volumes_compressed h3 ⟨v, v1, data, blocks, v2, v3, by
    rw [List.any_eq_true]
    refine ⟨b, b1, ?_⟩
    unfold isCompressed
    rw [b3]
    simp [b2, b4]⟩]
  rfl

/-- A volume with a compressed file. -/
def exCompressed : Bytes := exVol2.set 45 0x33

example : createSrr exDig id 5 (fun _ => some exCompressed) (str "app") [] [⟨str "/a.r00", str "/a.r00", str "a.r00"⟩] false false =
    .error .valueError :=  by
  have hok : (createSrr exDig id 5 (fun _ => some exCompressed) (str "app") [] [⟨str "/a.r00", str "/a.r00", str "a.r00"⟩] true false).isOk =
    true := by decide +kernel
  cases hc : createSrr exDig id 5 (fun _ => some exCompressed) (str "app") [] [⟨str "/a.r00", str "/a.r00", str "a.r00"⟩] true false with
  | error e => rw [hc] at hok; simp [Except.isOk, Except.toBool] at hok
  | ok srr =>
    refine create_compressed_refused hc ⟨⟨str "/a.r00", str "/a.r00", str "a.r00"⟩, by simp, exCompressed, ?_⟩
    have : ∃ blocks, readAll exCompressed = .ok blocks ∧ blocks.any isCompressed = true := by
      have h : (match readAll exCompressed with | .ok bs => bs.any isCompressed | .error _ => false) = true := by decide +kernel
      cases hr : readAll exCompressed with
      | error e => rw [hr] at h; simp at h
      | ok bs => rw [hr] at h; exact ⟨bs, rfl, h⟩
    obtain ⟨blocks, h1, h2⟩ := this
    obtain ⟨b, h3, h4⟩ := List.any_eq_true.mp h2
    refine ⟨blocks, rfl, h1, b, h3, ?_⟩
    unfold isCompressed at h4
    split at h4
    · rename_i f hf
      simp only [Bool.and_eq_true, beq_iff_eq, bne_iff_ne] at h4
      exact ⟨f, h4.1, hf, h4.2⟩
    · simp at h4

end Rescene.Props
