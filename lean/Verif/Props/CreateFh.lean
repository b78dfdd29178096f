import Verif.Spec.CreateFh
import Verif.Props.Compression
import Verif.Props.Create
import Verif.Lemmas.Inputs
import Verif.Props.SrsFiles
import Verif.Props.Streams
/-
C96: SRR files made from open handles.
-/
namespace Rescene.Props
open Rescene Spec

/-! ### Lemmas -/

theorem handleOf_append_some {all more : Handles} {k : Str} {p : Posted} (h : handleOf all k = some p) :
    handleOf (all ++ more) k = some p := by
  unfold handleOf at h ⊢
  cases hf : all.find? (fun kv => kv.1 == k) with
  | none => rw [hf] at h; cases h
  | some kv => rw [hf] at h; rw [List.find?_append, hf]; exact h

theorem readPosted_arrives {retries phase : Nat} {p : Posted} {d : Bytes} {bs : List Block} (ha : Arrives retries phase p d)
    (hb : readAll d = .ok bs) : readPosted retries phase p = .ok bs := by
  obtain ⟨k, hk, hg, hf⟩ := ha
  unfold readPosted
  rw [usenet_first_good downloadAgain (fun _ => .ok ()) _ retries k (fun _ => rfl) hk]
  · show (p.got phase k >>= readAll) = _
    rw [hg]; exact hb
  · intro n hn
    obtain ⟨e, he, ht⟩ := hf n hn
    refine ⟨e, he, ?_⟩
    rcases ht with rfl | rfl <;> rfl
  · intro e he
    have : (p.got phase k >>= readAll) = .error e := he
    rw [hg, ok_bind, hb] at this
    cases this

theorem readFirst_readAll {d : Bytes} {bs : List Block} (h : readFirst d = .ok bs) : readAll d = .ok bs := by
  unfold readFirst at h
  unfold readAll readTrace
  cases hm : openReader d with
  | error e => rw [hm] at h; cases h
  | ok mode =>
    rw [hm, ok_bind] at h
    rw [ok_bind]
    cases hl : readLoop mode d (d.length + 1) RState.init with
    | error e => rw [hl] at h; cases e <;> cases h
    | ok t => rw [hl] at h; exact h

theorem dirname_plain {n : Str} (h : 0x2F ∉ n) : dirname n = [] := by
  unfold dirname
  rw [basename_plain h]
  simp

theorem volumesFrom_same {dig : Nat → Bool} {disk fs : FS} {isOld : Bool}
    (hsame : ∀ q, 0x2F ∉ q → (fs q).isSome = (disk q).isSome)
    (hplain : ∀ q r, (disk q).isSome → nextArchive dig q isOld = .ok r → 0x2F ∉ r) :
    ∀ (fuel : Nat) (q : Path), 0x2F ∉ q → volumesFrom dig fs isOld fuel q = volumesFrom dig disk isOld fuel q := by
  intro fuel
  induction fuel with
  | zero => intro q _; rfl
  | succ fuel ih =>
    intro q hq
    unfold volumesFrom
    rw [hsame q hq]
    by_cases hd : (disk q).isSome = true
    · rw [if_pos hd, if_pos hd]
      cases hn : nextArchive dig q isOld with
      | error e => rfl
      | ok r => rw [ok_bind, ok_bind, ih r (hplain q r hd hn)]
    · rw [if_neg hd, if_neg hd]

theorem same_isSome {w : World} {retries : Nat} {all : Handles} {disk : FS} (hs : SameFiles w retries all disk) (n : Str) :
    (handleOf all n).isSome = (disk n).isSome := by
  cases h : handleOf all n with
  | none => rw [hs.only n h]; rfl
  | some p => obtain ⟨d, hd, _⟩ := hs.there n p h; rw [hd]; rfl

theorem collectFhOne_same {w : World} {fuel retries : Nat} {all : Handles} {disk : FS} (hs : SameFiles w retries all disk)
    {f : FhIn} (hf : SameInput w disk f) {rs : List Path} (h : collectOne w disk fuel (inputName f) = .ok rs) :
    collectFhOne w fuel retries all f = .ok rs := by
  cases f with
  | handle p =>
    obtain ⟨hp, hsfv, d, hd, hg⟩ := hf
    simp only [collectOne, inputName, hsfv, if_true, hd] at h
    simp only [collectFhOne, hsfv, if_true, hg, ok_bind]
    rw [← h]
    unfold handleSfvFh handleSfv
    have hj : ∀ x : Str, posixJoin2 (dirname p.name) x = x := by
      intro x
      rw [dirname_plain hp]
      unfold posixJoin2
      split
      · rfl
      · rw [if_pos (Or.inl rfl)]; rfl
    simp only [hj]
  | name n =>
    have hn : endsWith (w.lower n) (str ".sfv") = false := hf
    simp only [collectOne, inputName, hn, Bool.false_eq_true, if_false] at h
    simp only [collectFhOne, hn, Bool.false_eq_true, if_false]
    unfold handleRar at h
    cases hd : disk n with
    | none => rw [hd] at h; cases h
    | some d =>
      rw [hd] at h
      simp only [bind_eq_ok] at h
      obtain ⟨bs, hb, h⟩ := h
      cases ha : handleOf all n with
      | none => rw [hs.only n ha] at hd; cases hd
      | some p =>
        obtain ⟨d', hd', harr⟩ := hs.there n p ha
        rw [hd] at hd'; cases hd'
        simp only
        unfold handleRarFh
        rw [readPosted_arrives (harr 0) (readFirst_readAll hb), ok_bind, hs.named n p ha]
        by_cases hfirst : firstRars w.dig w.lower [n] ≠ [n]
        · rw [if_pos hfirst] at h; cases h
        · rw [if_neg hfirst] at h ⊢
          rw [← h]
          apply volumesFrom_same
          · intro q hq
            rw [basename_plain hq]
            have := same_isSome hs q
            cases hh : handleOf all q with
            | none => rw [hh] at this; simpa using this
            | some p => rw [hh] at this; simpa using this
          · intro q r hq hnext
            rw [← same_isSome hs q] at hq
            obtain ⟨p, hp⟩ := Option.isSome_iff_exists.mp hq
            exact (hs.plain q p hp).2 _ r hnext
          · exact (hs.plain n p ha).1

theorem collectFh_same {w : World} {fuel retries : Nat} {all : Handles} {disk : FS} (hs : SameFiles w retries all disk) :
    ∀ {infiles : List FhIn} {rs : List Path}, (∀ f ∈ infiles, SameInput w disk f) →
      collect w disk fuel (infiles.map inputName) = .ok rs → collectFh w fuel retries all infiles = .ok rs := by
  intro infiles
  induction infiles with
  | nil => intro rs _ h; exact h
  | cons f t ih =>
    intro rs hf h
    simp only [List.map_cons, collect, bind_eq_ok, pure_eq_ok, Except.ok.injEq] at h
    obtain ⟨a, ha, b, hb, rfl⟩ := h
    simp only [collectFh]
    rw [collectFhOne_same hs (hf f List.mem_cons_self) ha, ok_bind, ih (fun g hg => hf g (List.mem_cons_of_mem _ hg)) hb, ok_bind]
    rfl

theorem findVolumes_there {lower : Str → Str} {all : Handles} : ∀ {rars : List Str},
    (∀ r ∈ rars, (handleOf all r).isSome = true) → findVolumes lower all rars = .ok all := by
  intro rars
  induction rars with
  | nil => intro _; rfl
  | cons r t ih =>
    intro h
    rw [findVolumes, if_pos (h r List.mem_cons_self)]
    exact ih fun x hx => h x (List.mem_cons_of_mem _ hx)

theorem createBlock_any {rar rar' : Path} {oso oso' o : List (Str × Path)} {b : Block} (h : createBlock true rar oso b = .ok o) :
    ∃ o', createBlock true rar' oso' b = .ok o' := by
  unfold createBlock at h ⊢
  by_cases hb : b.btype = 0x74
  · rw [if_pos hb] at h ⊢
    cases hk : b.kind with
    | packed f =>
      rw [hk] at h
      simp only at h ⊢
      by_cases hm : f.method ≠ 0x30
      · rw [if_pos hm]; exact ⟨_, rfl⟩
      · rw [if_neg hm] at h ⊢
        simp only [bind_eq_ok] at h
        obtain ⟨n, hn, _⟩ := h
        rw [hn]; exact ⟨_, rfl⟩
    | _ => rw [hk] at h; cases h
  · rw [if_neg hb] at h ⊢
    simp only [bind_eq_ok] at h
    obtain ⟨r, hr, h⟩ := h
    rw [hr, ok_bind]
    cases r with
    | false => exact ⟨_, rfl⟩
    | true =>
      simp only [if_true, bind_eq_ok] at h
      obtain ⟨x, hx, _⟩ := h
      simp only [if_true, hx]
      exact ⟨_, rfl⟩

theorem testEnd_ok {all : Handles} : ∀ {rars : List Str}, (∀ r ∈ rars, ∃ p, handleOf all r = some p ∧ p.last = true) →
    testEndSegments all rars = .ok () := by
  intro rars
  induction rars with
  | nil => intro _; rfl
  | cons r t ih =>
    intro h
    obtain ⟨p, hp, hl⟩ := h r List.mem_cons_self
    simp only [testEndSegments, hp, hl, if_true]
    exact ih fun x hx => h x (List.mem_cons_of_mem _ hx)

theorem testEnd_only {all : Handles} : ∀ {rars : List Str}, testEndSegments all rars = .ok () →
    ∀ r ∈ rars, ∃ p, handleOf all r = some p ∧ p.last = true := by
  intro rars
  induction rars with
  | nil => intro _ r hr; cases hr
  | cons r t ih =>
    intro h x hx
    unfold testEndSegments at h
    cases hp : handleOf all r with
    | none => rw [hp] at h; cases h
    | some p =>
      rw [hp] at h
      simp only at h
      by_cases hl : p.last = true
      · rw [if_pos hl] at h
        rcases List.mem_cons.mp hx with rfl | hx
        · exact ⟨p, hp, hl⟩
        · exact ih h x hx
      · rw [if_neg hl] at h; cases h

theorem fhBlocks_same {all : Handles} {rars : List Str} (hl : testEndSegments all rars = .ok ()) {rar : Path} :
    ∀ {bs : List Block} {oso o : List (Str × Path)} {raws : Bytes} (tested : Bool), createBlocks true rar oso bs = .ok (raws, o) →
      ∃ tested', fhBlocks all rars tested bs = .ok (raws, tested') := by
  intro bs
  induction bs with
  | nil => intro oso o raws tested h; simp only [createBlocks, Except.ok.injEq, Prod.mk.injEq] at h; exact ⟨tested, by rw [fhBlocks, h.1]⟩
  | cons b t ih =>
    intro oso o raws tested h
    simp only [createBlocks, bind_eq_ok, pure_eq_ok, Except.ok.injEq, Prod.mk.injEq, Prod.exists] at h
    obtain ⟨o1, h1, more, o2, h2, rfl, rfl⟩ := h
    obtain ⟨x, hx⟩ := createBlock_any (rar' := []) (oso' := []) h1
    obtain ⟨t1, ht1⟩ : ∃ t1, fhBlock all rars tested b = .ok t1 := by
      unfold fhBlock
      rw [hx, ok_bind]
      split
      · rw [hl]; exact ⟨_, rfl⟩
      · exact ⟨_, rfl⟩
    obtain ⟨t2, ht2⟩ := ih t1 h2
    refine ⟨t2, ?_⟩
    rw [fhBlocks, ht1, ok_bind, ht2]
    rfl

theorem fhVolumes_same {w : World} {retries : Nat} {all : Handles} {disk : FS} (hs : SameFiles w retries all disk)
    {rars : List Str} (hl : testEndSegments all rars = .ok ()) :
    ∀ {vs : List Str} {oso o : List (Str × Path)} {v : Bytes} (tested : Bool),
      createVolumes disk true oso (vs.map fun r => ⟨r, r, r⟩) = .ok (v, o) → fhVolumes retries all rars tested vs = .ok v := by
  intro vs
  induction vs with
  | nil => intro oso o v tested h; simp only [List.map_nil, createVolumes, Except.ok.injEq, Prod.mk.injEq] at h; rw [fhVolumes, h.1]
  | cons r t ih =>
    intro oso o v tested h
    simp only [List.map_cons, createVolumes] at h
    cases hd : disk r with
    | none => rw [hd] at h; cases h
    | some d =>
      rw [hd] at h
      simp only [bind_eq_ok, pure_eq_ok, Except.ok.injEq, Prod.mk.injEq, Prod.exists] at h
      obtain ⟨hdr, hh, bs, hb, raws, o1, h1, more, o2, h2, rfl, rfl⟩ := h
      cases ha : handleOf all r with
      | none => rw [hs.only r ha] at hd; cases hd
      | some p =>
        obtain ⟨d', hd', harr⟩ := hs.there r p ha
        rw [hd] at hd'; cases hd'
        obtain ⟨t1, ht1⟩ := fhBlocks_same hl tested h1
        rw [fhVolumes, ha]
        simp only
        rw [hs.named r p ha, hh, ok_bind, readPosted_arrives (harr 1) hb, ok_bind, ht1, ok_bind]
        simp only
        rw [ih t1 h2]
        rfl

theorem volumes_there {disk : FS} : ∀ {vs : List Str} {oso o : List (Str × Path)} {v : Bytes},
    createVolumes disk true oso (vs.map fun r => ⟨r, r, r⟩) = .ok (v, o) → ∀ r ∈ vs, (disk r).isSome = true := by
  intro vs
  induction vs with
  | nil => intro _ _ _ _ r hr; cases hr
  | cons r t ih =>
    intro oso o v h x hx
    simp only [List.map_cons, createVolumes] at h
    cases hd : disk r with
    | none => rw [hd] at h; cases h
    | some d =>
      rw [hd] at h
      simp only [bind_eq_ok, Prod.exists] at h
      obtain ⟨_, _, _, _, _, _, _, _, _, h2, _⟩ := h
      rcases List.mem_cons.mp hx with rfl | hx
      · rw [hd]; rfl
      · exact ih h2 x hx

theorem storeFh_same {disk : FS} : ∀ {ps : List Posted} {s : Bytes}, (∀ p ∈ ps, SameStored disk p) →
    storeAll disk (ps.map fun p => (p.name, p.name)) = .ok s → (ps.map storeFh).flatten = s := by
  intro ps
  induction ps with
  | nil => intro s _ h; simp only [List.map_nil, storeAll, Except.ok.injEq] at h; rw [← h]; rfl
  | cons p t ih =>
    intro s hp h
    obtain ⟨d, hd, hg, hsz⟩ := hp p List.mem_cons_self
    simp only [List.map_cons, storeAll, hd, bind_eq_ok, pure_eq_ok, Except.ok.injEq] at h
    obtain ⟨hdr, hh, more, hm, rfl⟩ := h
    have h1 : storeFh p = hdr ++ d := by
      unfold storeFh
      rw [hg, hsz, ok_bind, hh]
      rfl
    rw [List.map_cons, List.flatten_cons, h1, ih (fun q hq => hp q (List.mem_cons_of_mem _ hq)) hm, List.append_assoc]

/-! ### The properties -/

/-- C96: with handles that give the files of a folder, the SRR is the one that `create_srr` makes in that
folder with compressed archives allowed and without OSO hashes: it finds the same volumes from the SFV files
or the first volumes, and stores the same files.  Nothing else is written.  Downloads may fail for a while. -/
theorem fh_as_disk_partial (w : World) (fuel retries : Nat) (stat : Bool) (fs disk : FS) (app : Str) (srr : Path) (infiles : List FhIn)
    (all : Handles) (storeFiles : List Posted) (rars : List Path) (b : Bytes) (hdir : dirname srr ≠ [])
    (hs : SameFiles w retries all disk) (hi : ∀ f ∈ infiles, SameInput w disk f)
    (hst : ∀ p ∈ storeListFh w.lower infiles storeFiles, SameStored disk p)
    (hc : collect w disk fuel (infiles.map inputName) = .ok rars) (hne : rars ≠ [])
    (hb : createSrr w.dig w.lower fuel disk app ((storeListFh w.lower infiles storeFiles).map fun p => (p.name, p.name))
      (rars.map fun r => ⟨r, r, r⟩) true false = .ok b) :
    createFh w fuel retries stat fs app srr infiles all storeFiles = (fs.set srr (some b), .ok ()) := by
  simp only [createSrr, bind_eq_ok, pure_eq_ok, Except.ok.injEq, Prod.exists, Bool.false_eq_true, if_false] at hb
  obtain ⟨h, hh, s, hstore, v, o, hv, _, rfl, rfl⟩ := hb
  have hin : infiles ≠ [] := by
    rintro rfl
    simp only [List.map_nil, collect, Except.ok.injEq] at hc
    exact hne hc.symm
  have hthere : ∀ r ∈ rars, (handleOf all r).isSome = true := fun r hr => by
    rw [same_isSome hs r]; exact volumes_there hv r hr
  have hl : testEndSegments all rars = .ok () := testEnd_ok fun r hr => by
    obtain ⟨p, hp⟩ := Option.isSome_iff_exists.mp (hthere r hr)
    exact ⟨p, hp, hs.last r p hp⟩
  have hbody : fhBody w fuel retries all infiles storeFiles = .ok (s ++ v) := by
    unfold fhBody
    rw [collectFh_same hs hi hc, ok_bind, if_neg hne, findVolumes_there hthere, ok_bind, fhVolumes_same hs hl false hv, ok_bind,
      storeFh_same hst hstore]
    rfl
  unfold createFh
  rw [if_neg hin, if_neg hdir, hh]
  simp only [hbody, List.append_nil]

/-- What is in the SRR of a volume that was read through a handle: some download within the retries gave it,
and all its blocks are there. -/
theorem fhBlocks_raw {all : Handles} {rars : List Str} : ∀ {bs : List Block} {tested tested' : Bool} {raws : Bytes},
    fhBlocks all rars tested bs = .ok (raws, tested') →
      raws = (bs.map (·.raw)).flatten ∧ (tested' = true → tested = true ∨ testEndSegments all rars = .ok ()) ∧
      ((∃ b ∈ bs, b.btype = 0x7B) → tested' = true) ∧ (tested = true → tested' = true) := by
  intro bs
  induction bs with
  | nil =>
    intro tested tested' raws h
    simp only [fhBlocks, Except.ok.injEq, Prod.mk.injEq] at h
    obtain ⟨rfl, rfl⟩ := h
    exact ⟨rfl, Or.inl, fun ⟨b, hb, _⟩ => (by cases hb), id⟩
  | cons b t ih =>
    intro tested tested' raws h
    simp only [fhBlocks, bind_eq_ok, pure_eq_ok, Except.ok.injEq, Prod.mk.injEq, Prod.exists] at h
    obtain ⟨t1, h1, more, t2, h2, rfl, rfl⟩ := h
    obtain ⟨e1, e2, e3, e4⟩ := ih h2
    unfold fhBlock at h1
    simp only [bind_eq_ok] at h1
    obtain ⟨_, _, h1⟩ := h1
    have hstep : (t1 = true → tested = true ∨ testEndSegments all rars = .ok ()) ∧ (b.btype = 0x7B → t1 = true) ∧ (tested = true → t1 = true) := by
      by_cases hc : (!tested && b.btype == 0x7B) = true
      · rw [if_pos hc] at h1
        simp only [bind_eq_ok, pure_eq_ok, Except.ok.injEq] at h1
        obtain ⟨_, ht, rfl⟩ := h1
        exact ⟨fun _ => Or.inr ht, fun _ => rfl, fun _ => rfl⟩
      · rw [if_neg hc] at h1
        simp only [pure_eq_ok, Except.ok.injEq] at h1
        subst h1
        refine ⟨Or.inl, fun hb => ?_, id⟩
        cases ht : tested with
        | true => rfl
        | false => rw [ht, hb] at hc; exact absurd rfl hc
    refine ⟨by rw [e1]; rfl, fun ht => ?_, ?_, fun ht => e4 (hstep.2.2 ht)⟩
    · rcases e2 ht with ht | ht
      · exact hstep.1 ht
      · exact Or.inr ht
    · rintro ⟨x, hx, hx7⟩
      rcases List.mem_cons.mp hx with rfl | hx
      · exact e4 (hstep.2.1 hx7)
      · exact e3 ⟨x, hx, hx7⟩

/-- C96, one volume in the SRR: its name, and the blocks of one of its downloads. -/
def VolumeWritten (retries : Nat) (p : Posted) (out : Bytes) : Prop :=
  ∃ k d bs hdr, k ≤ retries + 2 ∧ p.got 1 k = .ok d ∧ readAll d = .ok bs ∧ mkRarFile p.name = .ok hdr ∧ out = hdr ++ (bs.map (·.raw)).flatten

theorem fhVolumes_written {retries : Nat} {all : Handles} {rars : List Str} : ∀ {vs : List Str} {tested : Bool} {v : Bytes},
    fhVolumes retries all rars tested vs = .ok v →
      ∃ outs : List Bytes, v = outs.flatten ∧ outs.length = vs.length ∧
        ∀ (i : Nat) (r : Str) (out : Bytes), vs[i]? = some r → outs[i]? = some out →
          ∃ p, handleOf all r = some p ∧ VolumeWritten retries p out := by
  intro vs
  induction vs with
  | nil =>
    intro tested v h
    simp only [fhVolumes, Except.ok.injEq] at h
    exact ⟨[], by rw [← h]; rfl, rfl, fun i r out hr => by simp at hr⟩
  | cons r t ih =>
    intro tested v h
    unfold fhVolumes at h
    cases hp : handleOf all r with
    | none => rw [hp] at h; cases h
    | some p =>
      rw [hp] at h
      simp only [bind_eq_ok, pure_eq_ok, Except.ok.injEq, Prod.exists] at h
      obtain ⟨hdr, hh, bs, hb, raws, t1, h1, more, h2, rfl⟩ := h
      obtain ⟨outs, rfl, hlen, hall⟩ := ih h2
      refine ⟨(hdr ++ raws) :: outs, by rw [List.flatten_cons, List.append_assoc], by simp [hlen], ?_⟩
      intro i x out hx ho
      cases i with
      | zero =>
        simp only [List.getElem?_cons_zero, Option.some.injEq] at hx ho
        subst hx; subst ho
        obtain ⟨k, hk, hr⟩ := usenet_result _ _ _ _ _ hb
        simp only [bind_eq_ok] at hr
        obtain ⟨d, hd, hr⟩ := hr
        exact ⟨p, hp, k, d, bs, hdr, hk, hd, hr, hh, by rw [(fhBlocks_raw h1).1]⟩
      | succ i =>
        simp only [List.getElem?_cons_succ] at hx ho
        exact hall i x out hx ho

theorem fhVolumes_ends {retries : Nat} {all : Handles} {rars : List Str} : ∀ {vs : List Str} {tested : Bool} {v : Bytes},
    fhVolumes retries all rars tested vs = .ok v →
      ∀ r ∈ vs, ∀ p, handleOf all r = some p → ∀ bs, readPosted retries 1 p = .ok bs → (∃ b ∈ bs, b.btype = 0x7B) →
        tested = true ∨ testEndSegments all rars = .ok () := by
  intro vs
  induction vs with
  | nil => intro _ _ _ r hr; cases hr
  | cons r t ih =>
    intro tested v h x hx p hp bs hb hend
    unfold fhVolumes at h
    cases hp' : handleOf all r with
    | none => rw [hp'] at h; cases h
    | some p' =>
      rw [hp'] at h
      simp only [bind_eq_ok, pure_eq_ok, Except.ok.injEq, Prod.exists] at h
      obtain ⟨hdr, hh, bs', hb', raws, t1, h1, more, h2, rfl⟩ := h
      obtain ⟨_, e2, e3, _⟩ := fhBlocks_raw h1
      rcases List.mem_cons.mp hx with rfl | hx
      · rw [hp'] at hp; cases hp
        rw [hb'] at hb; cases hb
        exact e2 (e3 hend)
      · rcases ih h2 x hx p hp bs hb hend with ht | ht
        · exact e2 ht
        · exact Or.inr ht

/-- The handles after the search for names with other capitals. -/
theorem findVolumes_keeps {lower : Str → Str} : ∀ {rars : List Str} {all all' : Handles}, findVolumes lower all rars = .ok all' →
    (∀ r p, handleOf all r = some p → handleOf all' r = some p) ∧ (∀ kv ∈ all', ∃ kv' ∈ all, kv'.2 = kv.2) ∧
    ∀ r ∈ rars, (handleOf all' r).isSome = true := by
  intro rars
  induction rars with
  | nil =>
    intro all all' h
    simp only [findVolumes, Except.ok.injEq] at h
    subst h
    exact ⟨fun _ _ h => h, fun kv h => ⟨kv, h, rfl⟩, fun r hr => (by cases hr)⟩
  | cons r t ih =>
    intro all all' h
    unfold findVolumes at h
    by_cases hr : (handleOf all r).isSome = true
    · rw [if_pos hr] at h
      obtain ⟨h1, h2, h3⟩ := ih h
      refine ⟨h1, h2, fun x hx => ?_⟩
      rcases List.mem_cons.mp hx with rfl | hx
      · obtain ⟨p, hp⟩ := Option.isSome_iff_exists.mp hr
        rw [h1 x p hp]; rfl
      · exact h3 x hx
    · rw [if_neg hr] at h
      cases hf : all.find? (fun kv => kv.1 == lower r || lower kv.1 == r) with
      | none => rw [hf] at h; cases h
      | some kv =>
        rw [hf] at h
        obtain ⟨h1, h2, h3⟩ := ih h
        refine ⟨fun x p hx => h1 x p (handleOf_append_some hx), fun y hy => ?_, fun x hx => ?_⟩
        · obtain ⟨z, hz, he⟩ := h2 y hy
          rcases List.mem_append.mp hz with hz | hz
          · exact ⟨z, hz, he⟩
          · simp only [List.mem_singleton] at hz
            subst hz
            exact ⟨kv, List.mem_of_find?_eq_some hf, he⟩
        · rcases List.mem_cons.mp hx with rfl | hx
          · have : (handleOf (all ++ [(x, kv.2)]) x).isSome = true := by
              unfold handleOf
              rw [List.find?_append]
              cases all.find? (fun kv => kv.1 == x) <;> simp
            obtain ⟨p, hp⟩ := Option.isSome_iff_exists.mp this
            rw [h1 x p hp]; rfl
          · exact h3 x hx

/-- C96: an SRR that was made has the SRR header, the files to store that could be read, and for each volume in
the order of the SFV files (or of the names) its name and all blocks of one of its downloads, which is one of
the handles.  No other file is written. -/
theorem fh_written (w : World) (fuel retries : Nat) (stat : Bool) (fs fs' : FS) (app : Str) (srr : Path) (infiles : List FhIn) (all : Handles)
    (storeFiles : List Posted) (h : createFh w fuel retries stat fs app srr infiles all storeFiles = (fs', .ok ())) :
    ∃ (hdr : Bytes) (rars : List Str) (outs : List Bytes), mkSrrHeader app = .ok hdr ∧ collectFh w fuel retries all infiles = .ok rars ∧ rars ≠ [] ∧
      outs.length = rars.length ∧
      (∀ (i : Nat) (out : Bytes), outs[i]? = some out → ∃ kv ∈ all, VolumeWritten retries kv.2 out) ∧
      (∀ (i : Nat) (r : Str) (out : Bytes) (p : Posted), rars[i]? = some r → outs[i]? = some out → handleOf all r = some p →
        VolumeWritten retries p out) ∧
      fs' = fs.set srr (some (hdr ++ (((storeListFh w.lower infiles storeFiles).map storeFh).flatten ++ outs.flatten))) := by
  unfold createFh at h
  split at h
  · cases h
  split at h
  · cases h
  cases hh : mkSrrHeader app with
  | error e => rw [hh] at h; cases h
  | ok hdr =>
    rw [hh] at h
    simp only at h
    cases hbd : fhBody w fuel retries all infiles storeFiles with
    | error e => rw [hbd] at h; cases h
    | ok b =>
      rw [hbd] at h
      simp only [Prod.mk.injEq, and_true] at h
      subst h
      unfold fhBody at hbd
      simp only [bind_eq_ok] at hbd
      obtain ⟨rars, hr, hbd⟩ := hbd
      split at hbd
      · cases hbd
      rename_i hne
      simp only [bind_eq_ok, pure_eq_ok, Except.ok.injEq] at hbd
      obtain ⟨all', ha, v, hv, rfl⟩ := hbd
      obtain ⟨k1, k2, k3⟩ := findVolumes_keeps ha
      obtain ⟨outs, rfl, hlen, hall⟩ := fhVolumes_written hv
      refine ⟨hdr, rars, outs, rfl, hr, hne, hlen, ?_, ?_, rfl⟩
      · intro i out ho
        have hi : i < rars.length := by
          rw [← hlen]; exact (List.getElem?_eq_some_iff.mp ho).1
        obtain ⟨p, hp, hw⟩ := hall i rars[i] out (List.getElem?_eq_getElem hi) ho
        unfold handleOf at hp
        simp only [Option.map_eq_some_iff] at hp
        obtain ⟨kv, hk, rfl⟩ := hp
        obtain ⟨kv', hk', he⟩ := k2 kv (List.mem_of_find?_eq_some hk)
        exact ⟨kv', hk', he ▸ hw⟩
      · intro i r out p hi ho hp
        obtain ⟨p', hp', hw⟩ := hall i r out hi ho
        rw [k1 r p hp] at hp'
        cases hp'
        exact hw

/-- C96: when it does not succeed, no SRR is left under that name, except that nothing at all happened when
there were no input files or the name has no folder (the last case: the program name cannot be written).
Other files are never touched. -/
theorem fh_failed (w : World) (fuel retries : Nat) (stat : Bool) (fs fs' : FS) (app : Str) (srr : Path) (infiles : List FhIn) (all : Handles)
    (storeFiles : List Posted) (e : Err) (happ : ∃ h, mkSrrHeader app = .ok h)
    (h : createFh w fuel retries stat fs app srr infiles all storeFiles = (fs', .error e)) :
    (∀ q, q ≠ srr → fs' q = fs q) ∧ (fs' srr = none ∨ (fs' = fs ∧ (infiles = [] ∨ dirname srr = []))) := by
  obtain ⟨hdr, hh⟩ := happ
  unfold createFh at h
  split at h
  · cases h; rename_i hin; exact ⟨fun _ _ => rfl, Or.inr ⟨rfl, Or.inl hin⟩⟩
  split at h
  · cases h; rename_i hd; exact ⟨fun _ _ => rfl, Or.inr ⟨rfl, Or.inr hd⟩⟩
  rw [hh] at h
  simp only at h
  cases hbd : fhBody w fuel retries all infiles storeFiles with
  | ok b => rw [hbd] at h; cases h
  | error e' =>
    rw [hbd] at h
    simp only [Prod.mk.injEq] at h
    obtain ⟨rfl, _⟩ := h
    exact ⟨fun q hq => by simp [FS.set, hq], Or.inl (by simp [FS.set])⟩

/-- C96: a set of volumes of which one has an end block is only accepted when the last segment of every volume
is on the server. -/
theorem fh_complete (w : World) (fuel retries : Nat) (stat : Bool) (fs fs' : FS) (app : Str) (srr : Path) (infiles : List FhIn) (all : Handles)
    (storeFiles : List Posted) (rars : List Str) (h : createFh w fuel retries stat fs app srr infiles all storeFiles = (fs', .ok ()))
    (hc : collectFh w fuel retries all infiles = .ok rars) (r : Str) (hr : r ∈ rars) (p : Posted) (hp : handleOf all r = some p)
    (bs : List Block) (hb : readPosted retries 1 p = .ok bs) (hend : ∃ b ∈ bs, b.btype = 0x7B) :
    ∀ x ∈ rars, ∀ q, handleOf all x = some q → q.last = true := by
  unfold createFh at h
  split at h
  · cases h
  split at h
  · cases h
  cases hh : mkSrrHeader app with
  | error e => rw [hh] at h; cases h
  | ok hdr =>
    rw [hh] at h
    simp only at h
    cases hbd : fhBody w fuel retries all infiles storeFiles with
    | error e => rw [hbd] at h; cases h
    | ok b =>
      unfold fhBody at hbd
      rw [hc, ok_bind] at hbd
      split at hbd
      · cases hbd
      simp only [bind_eq_ok] at hbd
      obtain ⟨all', ha, v, hv, _⟩ := hbd
      obtain ⟨k1, _, _⟩ := findVolumes_keeps ha
      rcases fhVolumes_ends hv r hr p (k1 r p hp) bs hb hend with ht | ht
      · cases ht
      · intro x hx q hq
        obtain ⟨q', hq', hl⟩ := testEnd_only ht x hx
        rw [k1 x q hq] at hq'
        cases hq'
        exact hl

/-- C96: volumes are found when their names in the SFV file are the names of handles, or when one of the two is
all lower case and they differ in capitals only. -/
theorem fh_capitals (lower : Str → Str) : ∀ (rars : List Str) (all : Handles),
    (∀ r ∈ rars, ∃ kv ∈ all, kv.1 = r ∨ kv.1 = lower r ∨ lower kv.1 = r) → ∃ all', findVolumes lower all rars = .ok all' := by
  intro rars
  induction rars with
  | nil => intro all _; exact ⟨all, rfl⟩
  | cons r t ih =>
    intro all h
    unfold findVolumes
    by_cases hr : (handleOf all r).isSome = true
    · rw [if_pos hr]
      exact ih all fun x hx => h x (List.mem_cons_of_mem _ hx)
    · rw [if_neg hr]
      obtain ⟨kv, hk, hm⟩ := h r List.mem_cons_self
      cases hf : all.find? (fun kv => kv.1 == lower r || lower kv.1 == r) with
      | none =>
        rw [List.find?_eq_none] at hf
        have := hf kv hk
        rcases hm with hm | hm | hm
        · exfalso
          apply hr
          unfold handleOf
          cases hff : all.find? (fun kv => kv.1 == r) with
          | none => rw [List.find?_eq_none] at hff; exact absurd (by simp [hm]) (hff kv hk)
          | some _ => rfl
        · exact absurd (by simp [hm]) this
        · exact absurd (by simp [hm]) this
      | some kv =>
        exact ih _ fun x hx => by
          obtain ⟨y, hy, hm⟩ := h x (List.mem_cons_of_mem _ hx)
          exact ⟨y, List.mem_append_left _ hy, hm⟩

/-- C96: a volume of the SFV file that was not posted under any capitals: no SRR. -/
theorem fh_missing (w : World) (hlow : ∀ s, w.lower (w.lower s) = w.lower s) (fuel retries : Nat) (stat : Bool) (fs : FS) (app : Str)
    (srr : Path) (infiles : List FhIn) (all : Handles) (storeFiles : List Posted) (rars : List Str) (r : Str) (hr : r ∈ rars)
    (hc : collectFh w fuel retries all infiles = .ok rars) (hno : ∀ kv ∈ all, w.lower kv.1 ≠ w.lower r) :
    (createFh w fuel retries stat fs app srr infiles all storeFiles).2 ≠ .ok () := by
  have key : ∀ (l : List Str) (all : Handles), r ∈ l → (∀ kv ∈ all, w.lower kv.1 ≠ w.lower r) →
      findVolumes w.lower all l = .error .fileNotFound := by
    intro l
    induction l with
    | nil => intro _ h; cases h
    | cons x t ih =>
      intro all hx hno
      unfold findVolumes
      by_cases hh : (handleOf all x).isSome = true
      · rw [if_pos hh]
        rcases List.mem_cons.mp hx with rfl | hx
        · exfalso
          obtain ⟨p, hp⟩ := Option.isSome_iff_exists.mp hh
          unfold handleOf at hp
          simp only [Option.map_eq_some_iff] at hp
          obtain ⟨kv, hk, _⟩ := hp
          have h1 := List.find?_some hk
          simp only [beq_iff_eq] at h1
          exact hno kv (List.mem_of_find?_eq_some hk) (by rw [h1])
        · exact ih all hx hno
      · rw [if_neg hh]
        cases hf : all.find? (fun kv => kv.1 == w.lower x || w.lower kv.1 == x) with
        | none => rfl
        | some kv =>
          have h1 := List.find?_some hf
          have hkv := List.mem_of_find?_eq_some hf
          simp only [Bool.or_eq_true, beq_iff_eq] at h1
          have hlx : w.lower x = w.lower kv.1 := by
            rcases h1 with h1 | h1
            · rw [h1, hlow]
            · rw [← h1, hlow]
          rcases List.mem_cons.mp hx with rfl | hx
          · exact absurd hlx.symm (hno kv hkv)
          · apply ih _ hx
            intro y hy
            rcases List.mem_append.mp hy with hy | hy
            · exact hno y hy
            · simp only [List.mem_singleton] at hy
              subst hy
              rw [hlx]
              exact hno kv hkv
  have hbody : fhBody w fuel retries all infiles storeFiles = .error .fileNotFound := by
    unfold fhBody
    rw [hc, ok_bind, if_neg (by rintro rfl; cases hr), key rars all hr hno]
    rfl
  unfold createFh
  split
  · simp
  split
  · simp
  cases mkSrrHeader app with
  | error e => simp
  | ok hdr => simp [hbody]

/-! ### A set of two volumes with an SFV file; the first download of the first volume is damaged -/

/-- The end block of a volume. -/
def exEnd : Bytes := [0xC4, 0x3D, 0x7B, 0, 0x40, 7, 0]
def exFirst : Bytes := exVolume [(0x78, 2, [1, 2])] ++ exEnd
def exSecond : Bytes := exVolume [(0x78, 1, [3])] ++ exEnd
def exSfvData : Bytes := "a.r00 00000000\na.rar 11111111\n".toUTF8.toList

def exFhWorld : World := { dig := exDig, lower := lowerStr, sort := id, cwd := str "/", listdir := fun _ => none, all := [] }

def exPosted (name : Str) (d : Bytes) : Posted := { name := name, got := fun _ _ => .ok d, size := d.length, last := true }

/-- The first volume: no article, then garbage, then the volume. -/
def exFlaky : Posted :=
  { name := str "a.rar", got := fun _ k => if k = 0 then .error .envError else if k = 1 then .ok (exFirst.take 20 ++ [0, 0, 0x74, 0, 0, 0, 0]) else .ok exFirst,
    size := 0, last := true }

def exFhAll : Handles := [(str "a.rar", exFlaky), (str "a.r00", exPosted (str "a.r00") exSecond), (str "a.sfv", exPosted (str "a.sfv") exSfvData)]

def exFhDisk (p : Str) : Option Bytes :=
  if p = str "a.rar" then some exFirst else if p = str "a.r00" then some exSecond else if p = str "a.sfv" then some exSfvData else none

theorem exFhAll_cases {n : Str} {p : Posted} (h : handleOf exFhAll n = some p) :
    (n = str "a.rar" ∧ p = exFlaky) ∨ (n = str "a.r00" ∧ p = exPosted (str "a.r00") exSecond) ∨ (n = str "a.sfv" ∧ p = exPosted (str "a.sfv") exSfvData) := by
  unfold handleOf exFhAll at h
  simp only [List.find?_cons, List.find?_nil] at h
  by_cases h1 : str "a.rar" = n
  · rw [show (str "a.rar" == n) = true from by simpa using h1] at h
    cases h; exact Or.inl ⟨h1.symm, rfl⟩
  rw [show (str "a.rar" == n) = false from by simpa using h1] at h
  by_cases h2 : str "a.r00" = n
  · rw [show (str "a.r00" == n) = true from by simpa using h2] at h
    cases h; exact Or.inr (Or.inl ⟨h2.symm, rfl⟩)
  rw [show (str "a.r00" == n) = false from by simpa using h2] at h
  by_cases h3 : str "a.sfv" = n
  · rw [show (str "a.sfv" == n) = true from by simpa using h3] at h
    cases h; exact Or.inr (Or.inr ⟨h3.symm, rfl⟩)
  rw [show (str "a.sfv" == n) = false from by simpa using h3] at h
  cases h

set_option maxRecDepth 100000 in
theorem exSameFiles : SameFiles exFhWorld 7 exFhAll exFhDisk := by
  have hflaky : ∀ phase, Arrives 7 phase exFlaky exFirst := fun phase =>
    ⟨2, by decide, rfl, fun n hn => by
      have : n = 0 ∨ n = 1 := by omega
      rcases this with rfl | rfl
      · exact ⟨.envError, rfl, Or.inl rfl⟩
      · exact ⟨.envError, by show readAll (exFirst.take 20 ++ [0, 0, 0x74, 0, 0, 0, 0]) = _; decide +kernel, Or.inl rfl⟩⟩
  have hplain : ∀ s d phase, Arrives 7 phase (exPosted s d) d := fun s d phase => ⟨0, by decide, rfl, fun n hn => absurd hn (by omega)⟩
  have hnext : ∀ (s t u : Str), nextArchive exDig s true = .ok t → 0x2F ∉ t → nextArchive exDig s false = .ok u → 0x2F ∉ u →
      ∀ old q, nextArchive exDig s old = .ok q → 0x2F ∉ q := by
    intro s t u h1 h2 h3 h4 old q hq
    cases old with
    | true => rw [h1] at hq; cases hq; exact h2
    | false => rw [h3] at hq; cases hq; exact h4
  refine ⟨?_, ?_, ?_, ?_, ?_⟩
  · intro n p h
    rcases exFhAll_cases h with ⟨rfl, rfl⟩ | ⟨rfl, rfl⟩ | ⟨rfl, rfl⟩ <;> rfl
  · intro n p h
    rcases exFhAll_cases h with ⟨rfl, rfl⟩ | ⟨rfl, rfl⟩ | ⟨rfl, rfl⟩
    · exact ⟨by decide, hnext _ (str "a.r00") (str "a.r00") (by decide +kernel) (by decide) (by decide +kernel) (by decide)⟩
    · exact ⟨by decide, hnext _ (str "a.r01") (str "a.r01") (by decide +kernel) (by decide) (by decide +kernel) (by decide)⟩
    · refine ⟨by decide, fun old q hq => ?_⟩
      have h1 : nextArchive exDig (str "a.sfv") true = .error .attrError := by decide +kernel
      have h2 : nextArchive exDig (str "a.sfv") false = .error .attrError := by decide +kernel
      cases old with
      | true => rw [show exFhWorld.dig = exDig from rfl, h1] at hq; cases hq
      | false => rw [show exFhWorld.dig = exDig from rfl, h2] at hq; cases hq
  · intro n p h
    rcases exFhAll_cases h with ⟨rfl, rfl⟩ | ⟨rfl, rfl⟩ | ⟨rfl, rfl⟩
    · exact ⟨exFirst, rfl, hflaky⟩
    · exact ⟨exSecond, by decide +kernel, hplain _ _⟩
    · exact ⟨exSfvData, by decide +kernel, hplain _ _⟩
  · intro n h
    unfold handleOf exFhAll at h
    simp only [Option.map_eq_none_iff, List.find?_eq_none, List.mem_cons, List.not_mem_nil, or_false, forall_eq_or_imp, forall_eq, beq_iff_eq] at h
    unfold exFhDisk
    rw [if_neg (Ne.symm h.1), if_neg (Ne.symm h.2.1), if_neg (Ne.symm h.2.2)]
  · intro n p h
    rcases exFhAll_cases h with ⟨rfl, rfl⟩ | ⟨rfl, rfl⟩ | ⟨rfl, rfl⟩ <;> rfl

/-- The input: the SFV file, by its handle. -/
def exFhIn : List FhIn := [.handle (exPosted (str "a.sfv") exSfvData)]

/-- Is this the SRR of the two volumes, with the SFV file? -/
def isExSrr (b : Bytes) : Bool :=
  match createSrr exDig lowerStr 5 exFhDisk (str "p") [(str "a.sfv", str "a.sfv")] [⟨str "a.rar", str "a.rar", str "a.rar"⟩, ⟨str "a.r00", str "a.r00", str "a.r00"⟩] true false with
  | .ok x => x == b
  | .error _ => false

set_option maxRecDepth 100000 in
/-- The other hypotheses of `fh_as_disk_partial`, from the SFV file. -/
example : (∀ f ∈ exFhIn, SameInput exFhWorld exFhDisk f) ∧ (∀ p ∈ storeListFh exFhWorld.lower exFhIn [], SameStored exFhDisk p) ∧
    collect exFhWorld exFhDisk 5 (exFhIn.map inputName) = .ok [str "a.r00", str "a.rar"] ∧
    collect exFhWorld exFhDisk 5 [str "a.rar"] = .ok [str "a.rar", str "a.r00"] ∧ dirname (str "/out/a.srr") ≠ [] := by
  have hl : storeListFh exFhWorld.lower exFhIn [] = [exPosted (str "a.sfv") exSfvData] := by
    have : (exFhWorld.lower ((exPosted (str "a.sfv") exSfvData).name.drop ((exPosted (str "a.sfv") exSfvData).name.length - 4)) == str ".sfv") = true := by decide +kernel
    simp only [storeListFh, exFhIn, List.filterMap_cons, this, if_true, List.filterMap_nil, List.nil_append]
  refine ⟨?_, ?_, by decide +kernel, by decide +kernel, by decide +kernel⟩
  · intro f hf
    simp only [exFhIn, List.mem_singleton] at hf
    subst hf
    exact ⟨by decide, by decide +kernel, exSfvData, by decide +kernel, rfl⟩
  · rw [hl]
    intro p hp
    simp only [List.mem_singleton] at hp
    subst hp
    exact ⟨exSfvData, by decide +kernel, rfl, rfl⟩

/-- The SRR and how it ended, for the examples. -/
def exFhRun (srr : Str) (infiles : List FhIn) (all : Handles) (storeFiles : List Posted) (stat : Bool) (before : FS) : Option Bytes × Bool :=
  let r := createFh exFhWorld 5 7 stat before (str "p") srr infiles all storeFiles
  (r.1 srr, match r.2 with | .ok _ => true | .error _ => false)

set_option maxRecDepth 100000 in
/-- From the name of the first volume, the SFV file being one of the files to store: the SRR of the files on disk. -/
example : (match exFhRun (str "/out/a.srr") [.name (str "a.rar")] exFhAll [exPosted (str "a.sfv") exSfvData] true (fun _ => none) with
    | (some b, ok) => ok && isExSrr b | (none, _) => false) = true := by decide +kernel

/-- Handles like those of the example with another first volume. -/
def exFhWith (name : Str) (p : Posted) : Handles := [(name, p), (str "a.r00", exPosted (str "a.r00") exSecond)]

set_option maxRecDepth 100000 in
/-- C96: capitals on both sides: the volume `A.rar` of the SFV file was posted as `a.RAR`, and is not found. -/
theorem fh_both_capitals :
    exFhRun (str "/out/a.srr") [.handle (exPosted (str "a.sfv") ("A.rar 00000000\n".toUTF8.toList))] (exFhWith (str "a.RAR") (exPosted (str "a.RAR") exFirst)) [] true (fun _ => none) =
      (none, false) ∧ lowerStr (str "A.rar") = lowerStr (str "a.RAR") ∧
    (exFhRun (str "/out/a.srr") [.handle (exPosted (str "a.sfv") ("A.rar 00000000\n".toUTF8.toList))] (exFhWith (str "a.rar") (exPosted (str "a.rar") exFirst)) [] true (fun _ => none)).2 =
      true := by decide +kernel

set_option maxRecDepth 100000 in
/-- C96: an SRR of that name from before is lost when the new one cannot be made. -/
theorem fh_existing_lost :
    exFhRun (str "/out/a.srr") [.name (str "b.rar")] exFhAll [] true (fun _ => some [0x69]) = (none, false) := by decide +kernel

set_option maxRecDepth 100000 in
/-- C96: an SRR in the working directory cannot be made: `os.makedirs("")`. -/
theorem fh_bare_name :
    exFhRun (str "a.srr") [.name (str "a.rar")] exFhAll [] true (fun _ => none) = (none, false) ∧
    (exFhRun (str "./a.srr") [.name (str "a.rar")] exFhAll [] true (fun _ => none)).2 = true := by decide +kernel

set_option maxRecDepth 100000 in
/-- C96: `stat=False` does not switch off the test for the last segments. -/
theorem fh_stat_ignored :
    exFhRun (str "/out/a.srr") [.name (str "a.rar")] (exFhWith (str "a.rar") { exPosted (str "a.rar") exFirst with last := false }) [] false (fun _ => none) =
      (none, false) ∧
    (exFhRun (str "/out/a.srr") [.name (str "a.rar")] (exFhWith (str "a.rar") (exPosted (str "a.rar") exFirst)) [] false (fun _ => none)).2 = true := by decide +kernel

/-- The names of the volumes in an SRR; `none` when it cannot be read. -/
def exVolNames (b : Bytes) : Option (List Str) :=
  match readAll b with
  | .ok bs => some (bs.filterMap fun b => match b.kind with | .rarFile n => some n | _ => none)
  | .error _ => none

set_option maxRecDepth 100000 in
/-- C96: the size of a stored file is taken from the post: when it announces more than there is, the first
volume is lost in it. -/
theorem fh_size_trusted :
    (exFhRun (str "/out/a.srr") [.name (str "a.rar")] exFhAll [{ exPosted (str "a.nfo") [1, 2] with size := 16 }] true (fun _ => none)).2 = true ∧
    ((exFhRun (str "/out/a.srr") [.name (str "a.rar")] exFhAll [{ exPosted (str "a.nfo") [1, 2] with size := 16 }] true (fun _ => none)).1.map exVolNames =
      some (some [str "a.r00"])) ∧
    ((exFhRun (str "/out/a.srr") [.name (str "a.rar")] exFhAll [exPosted (str "a.nfo") [1, 2]] true (fun _ => none)).1.map exVolNames =
      some (some [str "a.rar", str "a.r00"])) := by decide +kernel

set_option maxRecDepth 100000 in
/-- C96: a file to store that cannot be read is left out without failing. -/
theorem fh_stored_skipped :
    (match exFhRun (str "/out/a.srr") [.name (str "a.rar")] exFhAll [{ exPosted (str "a.nfo") [1] with got := fun _ _ => .error .envError }, exPosted (str "a.sfv") exSfvData]
      true (fun _ => none) with
    | (some b, ok) => ok && isExSrr b | (none, _) => false) = true := by decide +kernel

end Rescene.Props
