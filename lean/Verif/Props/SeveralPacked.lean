import Verif.Spec.SeveralPacked
import Verif.Props.MixedSet
/-
C107: the packed data of sets of several compressed files.
-/
namespace Rescene.Props
open Rescene Rescene.Spec

theorem packed_block {parts : List FilePart} {y : PackedFile} (h : y.In parts) (hsolid : ∀ q ∈ parts, q.flags &&& 0x10 = 0) :
    fullSize (partOf y.part) (parts.map partOf) = y.packed.length ∧ (parts.map partOf)[y.file.block]? = some (partOf y.part) ∧
      parts[y.file.block]? = some y.part ∧
      ∀ known, factoryPlan known y.file.block (partOf y.part) (parts.map partOf) = .ok (.alone (nextBlock y.file.block (parts.map partOf))) := by
  obtain ⟨pre, ps, post, rfl, hi, hpk, hparts, hothers⟩ := h.parts
  obtain ⟨x, p, packed, level⟩ := y
  dsimp only at hi hpk hparts hothers ⊢
  subst hpk
  rw [← hi]
  have hg : (pre ++ (p :: ps ++ post))[pre.length]? = some p := by
    rw [List.getElem?_append_right (Nat.le_refl _), Nat.sub_self]
    rfl
  refine ⟨?_, by rw [List.getElem?_map, hg]; rfl, hg, ?_⟩
  · have h1 := full_packed_size p.f.name ((p :: ps).map (·.f.packedSize)) (pre.map fun q => (q.f.name, q.f.packedSize))
      (post.map fun q => (q.f.name, q.f.packedSize))
      (by
        intro x hx
        obtain ⟨q, hq, rfl⟩ := List.mem_map.mp hx
        exact hothers q (List.mem_append_left _ hq))
      (by
        intro x hx
        obtain ⟨q, hq, rfl⟩ := List.mem_map.mp hx
        exact hothers q (List.mem_append_right _ hq))
    have h2 : ((p :: ps).map (·.f.packedSize)).map (fun s => (p.f.name, s)) = (p :: ps).map fun q => (q.f.name, q.f.packedSize) := by
      rw [List.map_map]
      apply List.map_congr_left
      intro q hq
      simp [(hparts q hq).1]
    rw [h2] at h1
    have h3 : ((p :: ps).map (·.f.packedSize)).sum = ((p :: ps).flatMap (·.data)).length := by
      rw [List.length_flatMap]
      congr 1
      apply List.map_congr_left
      intro q hq
      exact (hparts q hq).2
    rw [← h3, ← h1]
    unfold fullSize
    rw [List.map_map, List.map_append, List.map_append]
    rfl
  · intro known
    have hso : (partOf p).flags &&& 0x10 = 0 := hsolid p (by simp)
    have hf : followedBySolid pre.length ((pre ++ (p :: ps ++ post)).map partOf) = none := by
      unfold followedBySolid
      cases hn : ((pre ++ (p :: ps ++ post)).map partOf)[pre.length + 1]? with
      | none => rfl
      | some c =>
        have hm := List.mem_of_getElem? hn
        obtain ⟨q, hq, rfl⟩ := List.mem_map.mp hm
        have : (partOf q).flags &&& 0x10 = 0 := hsolid q hq
        simp [this]
    unfold factoryPlan
    rw [hf]
    simp [hso]

/-- C107: a file that is packed after others is packed with the executable that was good for the first of them, if that made it. -/
theorem later_found {w : RarWorld} {archived : Archived} {first : Str × (Str × RarVersion)} {blocks : List PackedPart} {i : Nat}
    {b : PackedPart} {level : Str} {d packed : Bytes} {nm : RarNames}
    (hlevel : compressionParameter b.method = .ok level) (hcrc : b.crc ≠ 0xFFFFFFFF) (hrepo : w.repo ≠ []) (hdata : packed ≠ [])
    (hruns : ∀ p v c, ∃ r, w.run p v c = .ok r ∧ r.heads ≠ [])
    (hsolid : b.flags &&& 0x10 = 0) (hset : w.settings.mtSet = []) (hout : nm.out ≠ [])
    (hsize : fullSize b blocks = packed.length) (hm : MadeWith w first.2.2 b d packed level nm) (next : Option Str) :
    ∃ a, compressedFile w (first :: archived) blocks i b d nm.src nm.out nm.piece d.length next false = .ok (first.2.2, a, packed) := by
  have hfull : fullSize b blocks ≠ 0 := by rw [hsize]; exact fun h0 => hdata (List.length_eq_zero_iff.mp h0)
  obtain ⟨n, hn, ht, heq⟩ := search_eq_any (archived := first :: archived) (i := i) hlevel hcrc hrepo hfull hruns hsolid d nm hout
  rw [hsize] at ht
  obtain ⟨acc, ha, hb⟩ := tryVersion_ok w b hcrc hruns (d.take n)
  obtain ⟨vs, hvs⟩ : ∃ vs, rarExecutables (·.older) (previousGood (first :: archived)) w.repo = first.2.2 :: vs := by
    unfold rarExecutables previousGood
    dsimp only
    split <;> exact ⟨_, rfl⟩
  obtain ⟨c0, hc0, hmade⟩ := hm.made
  generalize hargs : ({ level := level, dict := dictParameter b.flags, solid := false, threads := none,
                        split := if n = d.length then 0 else n * 3 / 5, archive := nm.out, before := [], store := [nm.piece],
                        after := [], all := [] } : RarArgs) = args at heq
  rw [hvs] at heq
  have hatt := attempt_find w (d.take n) b first.2.2 (acc first.2.2) (fun a => ha _ a) args (by rw [← hargs])
  have hcmd : ∀ c, ({ args with threads := c } : RarArgs).arglist first.2.2 =
      command first.2.2 level (dictParameter b.flags) false c (if n = d.length then 0 else n * 3 / 5) nm.out [nm.piece] := by
    intro c
    rw [← hargs, arglist_command _ _ (level_ne _ _ hlevel) (dict_ne _) hout rfl]
    rfl
  obtain ⟨g, hg⟩ : ∃ g, ((countsOf w.settings first.2.2).map fun c => ({ args with threads := c } : RarArgs)).find? (acc first.2.2) = some g := by
    cases hf : ((countsOf w.settings first.2.2).map fun c => ({ args with threads := c } : RarArgs)).find? (acc first.2.2) with
    | some g => exact ⟨g, rfl⟩
    | none =>
      exfalso
      have hno := List.find?_eq_none.mp hf _ (List.mem_map.mpr ⟨c0, mem_counts w.settings hset _ c0 hc0, rfl⟩)
      obtain ⟨r, hr, _⟩ := hruns (d.take n) first.2.2 (command first.2.2 level (dictParameter b.flags) false c0
        (if n = d.length then 0 else n * 3 / 5) nm.out [nm.piece])
      exact hno ((hb _ _ r (by rw [hcmd]; exact hr)).mpr (hmade n hn ht r hr))
  rw [hg] at hatt
  have hs : searchVersion w (first :: archived) blocks i b d nm.out nm.piece d.length none = .ok (some (first.2.2, g)) := by
    rw [heq]
    simp only [searchLoop, hatt]
  have hacc := List.find?_some hg
  obtain ⟨c, _, rfl⟩ := List.mem_map.mp (List.mem_of_find?_eq_some hg)
  obtain ⟨r, hr, _⟩ := hruns (d.take n) first.2.2 (command first.2.2 level (dictParameter b.flags) false c
    (if n = d.length then 0 else n * 3 / 5) nm.out [nm.piece])
  have hbeg := (hb _ _ r (by rw [hcmd]; exact hr)).mp hacc
  unfold compressedFile searchAgain sourceFiles
  rw [hs]
  simp only [ok_bind, Option.isNone_some, Bool.or_false, Bool.false_eq_true, if_false]
  obtain ⟨r', h1, h2⟩ := hm.agree c
    (if b.usize < fullSize b blocks then volumeSplit (fullSize b blocks) else if n = d.length then 0 else n * 3 / 5) n _ r ht hr hbeg
  rw [← hargs]
  refine ⟨{ level := level, dict := dictParameter b.flags, solid := false, threads := c,
            split := if b.usize < fullSize b blocks then volumeSplit (fullSize b blocks) else if n = d.length then 0 else n * 3 / 5,
            archive := nm.out, before := [], store := [nm.src], after := [], all := [] }, ?_⟩
  rw [arglist_command _ _ (level_ne _ _ hlevel) (dict_ne _) hout rfl]
  simp only [List.nil_append, List.append_nil]
  rw [h1, ok_bind, h2, if_neg (by omega)]

/-- C107: the files that are packed after the first one. -/
theorem later_made {w : RarWorld} {locate : PackedPart → Option Str} {parts : List FilePart} {v : RarVersion}
    (hsolid : ∀ q ∈ parts, q.flags &&& 0x10 = 0) (hrepo : w.repo ≠ [])
    (hruns : ∀ p v c, ∃ r, w.run p v c = .ok r ∧ r.heads ≠ []) (hset : w.settings.mtSet = []) :
    ∀ (files : List PackedFile) (n s : Str) (archived : Archived), (∀ y ∈ files, y.In parts ∧ y.MadeWith w v) →
    packAll w locate parts ((n, (s, v)) :: archived) (files.map (·.file)) = .ok (files.map (·.packed)) := by
  intro files
  induction files with
  | nil => intro n s archived _; rfl
  | cons y ys ih =>
    intro n s archived h
    obtain ⟨hp, hm⟩ := h y (by simp)
    obtain ⟨h1, h2, h3, h4⟩ := packed_block hp hsolid
    obtain ⟨a, ha⟩ := later_found (first := (n, (s, v))) (archived := archived) (i := y.file.block) hp.level hp.crc hrepo hp.data hruns
      (hsolid y.part (List.mem_of_getElem? h3)) hset hp.out h1 hm ((nextBlock y.file.block (parts.map partOf)).bind locate)
    rw [List.map_cons, packAll]
    unfold packOne
    rw [h2]
    dsimp only
    rw [h4]
    dsimp only
    rw [ha]
    simp only [ok_bind, pure_eq_ok]
    rw [List.cons_append, ih _ _ _ fun z hz => h z (List.mem_cons_of_mem _ hz)]
    rfl

/-- C107: the packed data of all compressed files of a set, in any number and in any number of parts, is made, when the first
was made by an executable at hand and every executable that can be taken for that one made the others.  Stored files can be
in front, behind and between. -/
theorem several_made {w : RarWorld} {locate : PackedPart → Option Str} {parts : List FilePart}
    (hsolid : ∀ q ∈ parts, q.flags &&& 0x10 = 0) (hrepo : w.repo ≠ [])
    (hruns : ∀ p v c, ∃ r, w.run p v c = .ok r ∧ r.heads ≠ []) (hset : w.settings.mtSet = [])
    {x : PackedFile} {files : List PackedFile} (hin : ∀ y ∈ x :: files, y.In parts)
    (hm : MadeBy w (partOf x.part) x.file.content x.packed x.level x.file.names)
    (hsame : ∀ v ∈ w.repo, Passes w v (partOf x.part) x.packed.length x.file.content x.level x.file.names → ∀ y ∈ files, y.MadeWith w v) :
    packAll w locate parts [] ((x :: files).map (·.file)) = .ok ((x :: files).map (·.packed)) := by
  have hx := hin x (by simp)
  obtain ⟨h1, h2, h3, h4⟩ := packed_block hx hsolid
  have hs : Searchable w [] (parts.map partOf) x.file.block (partOf x.part) x.level :=
    ⟨hx.level, hx.crc, hrepo, by rw [h1]; exact fun h0 => hx.data (List.length_eq_zero_iff.mp h0), hruns, none, by simp [previousSource]⟩
  obtain ⟨v, a, hf, hv, hpass⟩ := made_found_full hs (hsolid x.part (List.mem_of_getElem? h3)) hset hx.out h1 hm
    ((nextBlock x.file.block (parts.map partOf)).bind locate)
  rw [List.map_cons, packAll]
  unfold packOne
  rw [h2]
  dsimp only
  rw [h4]
  dsimp only
  rw [hf]
  simp only [ok_bind, pure_eq_ok]
  rw [List.nil_append, later_made hsolid hrepo hruns hset files _ _ _ fun y hy => ⟨hin y (List.mem_cons_of_mem _ hy), hsame v hv hpass y hy⟩]
  rfl

theorem packs_mono {holds holds' : FilePart → Bytes → Prop} (h : ∀ p d, holds p d → holds' p d) {cur : Option (Str × Bytes)}
    {ps : List FilePart} (hp : Packs holds cur ps) : Packs holds' cur ps := by
  induction hp with
  | nil => exact Packs.nil
  | continues _ ih => exact Packs.continues ih
  | starts h1 h2 _ ih => exact Packs.starts h1 (h _ _ h2) ih

/-- C107: an SRR made of a set of volumes with any number of compressed and stored files is turned into the same volumes again,
given the files and a repository with an executable that made the first compressed file, when all executables that can be
taken for it made the other ones. -/
theorem compressed_several_rebuilt_partial {dig : Nat → Bool} {lower : Str → Str} {fuel : Nat} {fs0 : FS} {app : Str}
    {stored : List (Str × Path)} {vols : List (RarIn × Bytes)} {compressed oso : Bool} {srr : Bytes}
    (hcreate : createSrr dig lower fuel fs0 app stored (vols.map (·.1)) compressed oso = .ok srr)
    (hvols : ∀ v ∈ vols, fs0 v.1.exact = some v.2 ∧ GoodVolume v.2) (hne : vols ≠ [])
    {a : RecArgs} {fs1 : FS} (hsrr : fs1 a.srr = some srr) (hpart : a.part = [])
    {ext : List Path}
    (hext : a.extractFiles = true → ∀ x ∈ stored, ∃ p ∈ ext, opath x.1 a.extractPaths a.outFolder = .ok p ∧ p ≠ a.srr)
    {out : RarIn × Bytes → Path}
    (houts : ∀ v ∈ vols, opath v.1.name a.extractPaths a.outFolder = .ok (out v) ∧
      (fs1 (out v) = none ∧ out v ∉ ext ∨ a.ask (out v) = true))
    (hdiff : (vols.map out).Nodup)
    {x : PackedFile} {files : List PackedFile}
    (hset1 : Packs (PackedOrStored a fs1 (vols.map out ++ ext) (x :: files)) none (vols.flatMap fun v => volumeParts v.2))
    (hsolid : ∀ q ∈ vols.flatMap fun v => volumeParts v.2, q.flags &&& 0x10 = 0)
    (hin : ∀ y ∈ x :: files, y.In (vols.flatMap fun v => volumeParts v.2))
    (_horder : ((x :: files).map (·.file.block)).Pairwise (· < ·))
    {w : RarWorld} {locate : PackedPart → Option Str}
    (hcompress : ∀ packed, packAll w locate (vols.flatMap fun v => volumeParts v.2) [] ((x :: files).map (·.file)) = .ok packed →
      ∀ (k : Nat) (y : PackedFile), (x :: files)[k]? = some y → ∀ d, packed[k]? = some d → a.compress y.part.f y.file.content = .ok d)
    (hrepo : w.repo ≠ []) (hruns : ∀ q v c, ∃ r, w.run q v c = .ok r ∧ r.heads ≠ []) (hset : w.settings.mtSet = [])
    (hm : MadeBy w (partOf x.part) x.file.content x.packed x.level x.file.names)
    (hsame : ∀ v ∈ w.repo, Passes w v (partOf x.part) x.packed.length x.file.content x.level x.file.names → ∀ y ∈ files, y.MadeWith w v) :
    ∃ fs2 reports, reconstruct a fs1 = .ok (fs2, reports, true) ∧
      (∀ v ∈ vols, fs2 (out v) = some v.2) ∧
      ∀ q, q ∉ vols.map out → q ∉ ext → fs2 q = fs1 q := by
  have hall := several_made (locate := locate) hsolid hrepo hruns hset hin hm hsame
  refine create_reconstruct hcreate hvols hne hsrr hpart hext houts hdiff (packs_mono ?_ hset1)
  rintro p d (⟨_, h⟩ | ⟨h1, h2, y, hy, rfl, rfl, name, h3, h4, h5, h6⟩)
  · exact h
  · unfold SourceIs
    rw [if_neg h1]
    refine ⟨name, _, h3, h4, h5, .inl h6, ?_⟩
    rw [if_neg h2]
    obtain ⟨k, hk⟩ := List.mem_iff_getElem?.mp hy
    exact hcompress _ hall k y hk _ (by rw [List.getElem?_map, hk]; rfl)

/-! ### A set that is rebuilt -/

/-- The last part of `x` and a compressed file `z` in one part. -/
def exSeveralVol2 : Bytes := exPackedHead 1 [0xF4, 0x99, 0x0B, 0x47] [3, 4, 5] ++
  ([0, 0, 0x74, 0, 0x80, 33, 0, 5, 0, 0, 0, 6, 0, 0, 0, 0] ++ [7, 0, 0, 0] ++ [0, 0, 0, 0, 20, 0x33, 1, 0, 0, 0, 0, 0, 0x7A] ++
    [1, 2, 3, 4, 5]) ++ [0, 0, 0x7B, 0, 0, 7, 0]

/-- A stored file, a compressed file in two parts and one in one part. -/
def exSeveralVols : List (RarIn × Bytes) :=
  [(⟨str "/in/a.rar", str "/in/a.rar", str "a.rar"⟩, exMixedVol1), (⟨str "/in/a.r00", str "/in/a.r00", str "a.r00"⟩, exSeveralVol2)]

def exSeveralSrr : Res Bytes :=
  createSrr exDig id 5 (fun p => if p = str "/in/a.rar" then some exMixedVol1 else if p = str "/in/a.r00" then some exSeveralVol2 else none)
    (str "app") [] (exSeveralVols.map (·.1)) true false

def exSeveralZ : FilePart := ⟨0x8000, ⟨5, 6, 0, 7, 0, 20, 0x33, 0, str "z", [0x7A], none, none⟩, [1, 2, 3, 4, 5]⟩

def exFileX : PackedFile := ⟨⟨1, [6, 6, 6, 6, 6, 6], exPackedNames⟩, exPacked1, [1, 2, 3, 4, 5], str "-m3"⟩
def exFileZ : PackedFile := ⟨⟨3, [6, 6, 6, 6, 6, 6], ⟨str "/r/z", str "/t/o.rar", str "/t/z"⟩⟩, exSeveralZ, [1, 2, 3, 4, 5], str "-m3"⟩

/-- What is packed for `x` and then for `z`. -/
def exSeveralPacked : Res (List Bytes) :=
  packAll exPackedWorld (fun _ => none) [exMixedStored, exPacked1, exPacked2, exSeveralZ] [] ([exFileX, exFileZ].map (·.file))

def exSeveralArgs : RecArgs :=
  { exArgs with compress := fun f _ => exSeveralPacked >>= fun l => match (if f.name = str "x" then l[0]? else l[1]?) with
      | some d => .ok d
      | none => .error .other }

def exSeveralDisk (srr : Bytes) (p : Path) : Option Bytes :=
  if p = str "/r/a.srr" then some srr else if p = str "/r/x" ∨ p = str "/r/z" then some [6, 6, 6, 6, 6, 6]
  else if p = str "/r/y" then some [8, 9] else none

set_option maxRecDepth 100000

theorem exSeveral_parts : (exSeveralVols.flatMap fun v => volumeParts v.2) = [exMixedStored, exPacked1, exPacked2, exSeveralZ] := by decide +kernel

theorem exZ_begins : Begins 5 7 ⟨[1, 2, 3, 4, 5], [(7, 5)]⟩ := by
  exact .inr ⟨by decide, by simp⟩

theorem exZ_made : exFileZ.MadeWith exPackedWorld exRar300 := by
  constructor
  · refine ⟨none, by unfold Threads; rw [if_neg (by decide)], ?_⟩
    intro n _ _ r hr
    unfold exPackedWorld at hr
    simp only [if_true, Except.ok.injEq] at hr
    subst hr
    exact exZ_begins
  · intro c split n split' r _ _ _
    exact ⟨_, rfl, by simp [exFileZ]⟩

theorem exX_passes {v : RarVersion} (h : Passes exPackedWorld v (partOf exPacked1) 5 [6, 6, 6, 6, 6, 6] (str "-m3") exPackedNames) : v = exRar300 := by
  obtain ⟨c, split, n, r, _, hr, hb⟩ := h
  unfold exPackedWorld at hr
  simp only [Except.ok.injEq] at hr
  by_cases h : v = exRar300
  · exact h
  · rw [if_neg h] at hr
    subst hr
    exact absurd hb exPacked_begins.2

/-- The hypotheses of `compressed_several_rebuilt_partial` hold for the set. -/
theorem exSeveralRebuilt : ∃ srr fs2 reports, exSeveralSrr = .ok srr ∧
    reconstruct exSeveralArgs (exSeveralDisk srr) = .ok (fs2, reports, true) ∧
    fs2 (str "/o/a.rar") = some exMixedVol1 ∧ fs2 (str "/o/a.r00") = some exSeveralVol2 := by
  have hok : exSeveralSrr.isOk = true := by decide +kernel
  cases hc : exSeveralSrr with
  | error e => rw [hc] at hok; simp [Except.isOk, Except.toBool] at hok
  | ok srr =>
    obtain ⟨fs2, reports, h1, h2, _⟩ := compressed_several_rebuilt_partial (a := exSeveralArgs) (fs1 := exSeveralDisk srr) (ext := [])
      (out := fun v => str "/o/" ++ v.1.name) (x := exFileX) (files := [exFileZ]) (w := exPackedWorld) (locate := fun _ => none) hc
      (by
        intro v hv
        simp only [exSeveralVols, List.mem_cons, List.not_mem_nil, or_false] at hv
        rcases hv with rfl | rfl
        · exact ⟨by decide +kernel, good_of_check (by decide +kernel)⟩
        · exact ⟨by decide +kernel, good_of_check (by decide +kernel)⟩)
      (by simp [exSeveralVols]) (by simp [exSeveralDisk, exSeveralArgs, exArgs]) rfl
      (by intro _ x hx; cases hx)
      (by
        intro v hv
        simp only [exSeveralVols, List.mem_cons, List.not_mem_nil, or_false] at hv
        rcases hv with rfl | rfl
        · exact ⟨by decide +kernel, Or.inl ⟨by
          unfold exSeveralDisk
          rw [if_neg (by decide +kernel), if_neg (by decide +kernel), if_neg (by decide +kernel)], by decide +kernel⟩⟩
        · exact ⟨by decide +kernel, Or.inl ⟨by
          unfold exSeveralDisk
          rw [if_neg (by decide +kernel), if_neg (by decide +kernel), if_neg (by decide +kernel)], by decide +kernel⟩⟩)
      (by decide +kernel)
      (by
        rw [exSeveral_parts]
        refine Packs.starts (rest := []) (by intro n r h; cases h) (Or.inl ⟨Or.inr rfl, ?_⟩) (Packs.starts (rest := exPacked2.data ++ []) ?_ ?_
          (Packs.continues (p := exPacked2) (rest := []) (Packs.starts (rest := []) ?_ ?_ Packs.nil)))
        · unfold SourceIs
          rw [if_neg (by decide)]
          refine ⟨str "y", [8, 9], Or.inr ⟨rfl, by decide +kernel⟩, by decide +kernel, ?_, Or.inl rfl, ?_⟩
          · unfold exSeveralDisk
            rw [if_neg (by decide +kernel), if_neg (by decide +kernel), if_pos (by decide +kernel)]
          · rw [if_pos (by decide)]; rfl
        · intro n r h; cases h; decide
        · refine Or.inr ⟨by decide, by decide, exFileX, by simp, rfl, rfl, str "x", Or.inr ⟨rfl, by decide +kernel⟩, by decide +kernel, ?_, rfl⟩
          unfold exSeveralDisk
          rw [if_neg (by decide +kernel), if_pos (by decide +kernel)]
          rfl
        · intro n r h; cases h; decide
        · refine Or.inr ⟨by decide, by decide, exFileZ, by simp, rfl, rfl, str "z", Or.inr ⟨rfl, by decide +kernel⟩, by decide +kernel, ?_, rfl⟩
          unfold exSeveralDisk
          rw [if_neg (by decide +kernel), if_pos (by decide +kernel)]
          rfl)
      (by rw [exSeveral_parts]; decide)
      (by
        rw [exSeveral_parts]
        intro y hy
        simp only [List.mem_cons, List.not_mem_nil, or_false] at hy
        rcases hy with rfl | rfl
        · exact ⟨⟨[exMixedStored], [exPacked2], [exSeveralZ], rfl, rfl, rfl, by decide, by decide⟩, by decide, rfl, by decide, by decide⟩
        · exact ⟨⟨[exMixedStored, exPacked1, exPacked2], [], [], rfl, rfl, rfl, by decide, by decide⟩, by decide, rfl, by decide, by decide⟩)
      (by decide)
      (by
        rw [exSeveral_parts]
        intro packed hp k y hk d hd
        have hp' : exSeveralPacked = .ok packed := hp
        show (exSeveralPacked >>= fun l => match (if y.part.f.name = str "x" then l[0]? else l[1]?) with
          | some d => .ok d
          | none => .error .other) = _
        rw [hp', ok_bind]
        match k, hk with
        | 0, hk =>
          cases hk
          rw [if_pos (show exFileX.part.f.name = str "x" from rfl), hd]
        | 1, hk =>
          cases hk
          rw [if_neg (by decide), hd])
      (by decide)
      (by
        intro q v c
        refine ⟨_, rfl, ?_⟩
        split <;> simp) rfl exPacked_made
      (by
        intro v _ hv y hy
        simp only [List.mem_cons, List.not_mem_nil, or_false] at hy
        subst hy
        rw [exX_passes hv]
        exact exZ_made)
    refine ⟨srr, fs2, reports, rfl, h1, ?_, ?_⟩
    · exact h2 (⟨str "/in/a.rar", str "/in/a.rar", str "a.rar"⟩, exMixedVol1) (by simp [exSeveralVols])
    · exact h2 (⟨str "/in/a.r00", str "/in/a.r00", str "a.r00"⟩, exSeveralVol2) (by simp [exSeveralVols])

end Rescene.Props
