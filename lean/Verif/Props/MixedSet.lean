import Verif.Model.MixedSet
import Verif.Props.Compressed
/-
C107: a set with one compressed file and any number of stored files is rebuilt byte for byte.
-/
namespace Rescene.Props
open Rescene Rescene.Spec

theorem packs_append {holds : FilePart → Bytes → Prop} {name : Str} {t : List FilePart}
    (ht : ∀ cur, (∀ n r, cur = some (n, r) → n ≠ name) → Packs holds cur t) {pre : List FilePart}
    {cur : Option (Str × Bytes)} (h : Packs holds cur pre) :
    (∀ q ∈ pre, q.f.name ≠ name) → (∀ n r, cur = some (n, r) → n ≠ name) → Packs holds cur (pre ++ t) := by
  induction h with
  | nil => intro _ hc; exact ht _ hc
  | continues _ ih =>
    intro hp hc
    refine Packs.continues (ih (fun q hq => hp q (List.mem_cons_of_mem _ hq)) ?_)
    intro n r hn
    cases hn
    exact hc _ _ rfl
  | starts h1 h2 _ ih =>
    intro hp _
    refine Packs.starts h1 h2 (ih (fun q hq => hp q (List.mem_cons_of_mem _ hq)) ?_)
    intro n r hn
    cases hn
    exact hp _ (by simp)

theorem packs_other {holds : FilePart → Bytes → Prop} {post : List FilePart} (h : Packs holds none post)
    {cur : Option (Str × Bytes)} {name : Str} (hp : ∀ q ∈ post, q.f.name ≠ name) (hc : ∀ n r, cur = some (n, r) → n = name) :
    Packs holds cur post := by
  cases h with
  | nil => exact Packs.nil
  | @starts _ p _ _ h1 h2 h3 =>
    refine Packs.starts ?_ h2 h3
    intro n r hn hx
    exact hp p (by simp) (by rw [← hx, hc n r hn])

theorem packs_parts {holds : FilePart → Bytes → Prop} (name : Str) {post : List FilePart} (h : Packs holds none post)
    (hp : ∀ q ∈ post, q.f.name ≠ name) : ∀ (ps : List FilePart), (∀ q ∈ ps, q.f.name = name) →
    Packs holds (some (name, ps.flatMap (·.data))) (ps ++ post) := by
  intro ps
  induction ps with
  | nil => intro _; exact packs_other h hp (by intro n r hn; cases hn; rfl)
  | cons q qs ih =>
    intro hq
    have h1 := hq q (by simp)
    subst h1
    exact Packs.continues (ih fun x hx => hq x (List.mem_cons_of_mem _ hx))

/-- C107: the packed data that is made for a compressed file anywhere in a set in which all other
files are stored is that of all its parts. -/
theorem mixed_made {w : RarWorld} {p : FilePart} {pre ps post : List FilePart} {level : Str} {d : Bytes} {nm : RarNames}
    (hparts : ∀ q ∈ p :: ps, q.f.name = p.f.name ∧ q.f.packedSize = q.data.length)
    (hothers : ∀ q ∈ pre ++ post, q.f.name ≠ p.f.name) (hsolid : ∀ q ∈ p :: ps ++ post, q.flags &&& 0x10 = 0)
    (hdata : (p :: ps).flatMap (·.data) ≠ [])
    (hlevel : compressionParameter p.f.method = .ok level) (hcrc : p.f.fileCrc ≠ 0xFFFFFFFF) (hrepo : w.repo ≠ [])
    (hruns : ∀ q v c, ∃ r, w.run q v c = .ok r ∧ r.heads ≠ []) (hset : w.settings.mtSet = []) (hout : nm.out ≠ [])
    (hm : MadeBy w (partOf p) d ((p :: ps).flatMap (·.data)) level nm) (locate : PackedPart → Option Str) :
    compressIn w nm locate (pre ++ (p :: ps ++ post)) pre.length d = .ok ((p :: ps).flatMap (·.data)) := by
  have hsize : fullSize (partOf p) ((pre ++ (p :: ps ++ post)).map partOf) = ((p :: ps).flatMap (·.data)).length := by
    have h1 := full_packed_size p.f.name ((p :: ps).map (·.f.packedSize)) (pre.map fun q => (q.f.name, q.f.packedSize))
      (post.map fun q => (q.f.name, q.f.packedSize))
      (by
        intro x hx
        obtain ⟨q, hq, rfl⟩ := List.mem_map.mp hx
        exact hothers q (List.mem_append_left _ hq))
      (by
        intro x hx
        obtain ⟨q, hq, rfl⟩ := List.mem_map.mp hx
        exact hothers q (List.mem_append_right _ hq))
    have h2 : ((p :: ps).map (·.f.packedSize)).map (fun s => (p.f.name, s)) = (p :: ps).map fun q => (q.f.name, q.f.packedSize) := by
      rw [List.map_map]
      apply List.map_congr_left
      intro q hq
      simp [(hparts q hq).1]
    rw [h2] at h1
    have h3 : ((p :: ps).map (·.f.packedSize)).sum = ((p :: ps).flatMap (·.data)).length := by
      rw [List.length_flatMap]
      congr 1
      apply List.map_congr_left
      intro q hq
      exact (hparts q hq).2
    rw [← h3, ← h1]
    unfold fullSize
    rw [List.map_map, List.map_append, List.map_append]
    rfl
  have hget : ((pre ++ (p :: ps ++ post)).map partOf)[pre.length]? = some (partOf p) := by
    rw [List.getElem?_map, List.getElem?_append_right (Nat.le_refl _), Nat.sub_self]
    rfl
  have hnext : ((pre ++ (p :: ps ++ post)).map partOf)[pre.length + 1]? = ((ps ++ post).map partOf)[0]? := by
    rw [List.getElem?_map, List.getElem?_append_right (by omega), show pre.length + 1 - pre.length = 1 by omega, List.getElem?_map]
    rfl
  have hs : Searchable w [] ((pre ++ (p :: ps ++ post)).map partOf) pre.length (partOf p) level :=
    ⟨hlevel, hcrc, hrepo, by rw [hsize]; exact fun h0 => hdata (List.length_eq_zero_iff.mp h0), hruns, none, by simp [previousSource]⟩
  have hso : (partOf p).flags &&& 0x10 = 0 := hsolid p (by simp)
  have hf : followedBySolid pre.length ((pre ++ (p :: ps ++ post)).map partOf) = none := by
    unfold followedBySolid
    rw [hnext]
    cases hq : ps ++ post with
    | nil => rfl
    | cons q qs =>
      have : (partOf q).flags &&& 0x10 = 0 := hsolid q (by rw [List.cons_append, hq]; simp)
      simp [this]
  have hplan : factoryPlan (fun _ => false) pre.length (partOf p) ((pre ++ (p :: ps ++ post)).map partOf) =
      .ok (.alone (nextBlock pre.length ((pre ++ (p :: ps ++ post)).map partOf))) := by
    unfold factoryPlan
    rw [hf]
    simp [hso]
  unfold compressIn
  rw [hget]
  dsimp only
  rw [hplan]
  dsimp only
  obtain ⟨v, a, h⟩ := made_found hs hso hset hout hsize hm ((nextBlock pre.length ((pre ++ (p :: ps ++ post)).map partOf)).bind locate)
  rw [h]
  rfl

/-- C107: an SRR made of a set of volumes with one compressed file and any number of stored files
before and behind it is turned into the same volumes again, given the files and a repository with
an executable that made the compressed one.  That the other files are stored is what `compressIn`
assumes: nothing was packed before. -/
theorem compressed_mixed_rebuilt_partial {dig : Nat → Bool} {lower : Str → Str} {fuel : Nat} {fs0 : FS} {app : Str}
    {stored : List (Str × Path)} {vols : List (RarIn × Bytes)} {compressed oso : Bool} {srr : Bytes}
    (hcreate : createSrr dig lower fuel fs0 app stored (vols.map (·.1)) compressed oso = .ok srr)
    (hvols : ∀ v ∈ vols, fs0 v.1.exact = some v.2 ∧ GoodVolume v.2) (hne : vols ≠ [])
    {a : RecArgs} {fs1 : FS} (hsrr : fs1 a.srr = some srr) (hpart : a.part = [])
    {ext : List Path}
    (hext : a.extractFiles = true → ∀ x ∈ stored, ∃ p ∈ ext, opath x.1 a.extractPaths a.outFolder = .ok p ∧ p ≠ a.srr)
    {out : RarIn × Bytes → Path}
    (houts : ∀ v ∈ vols, opath v.1.name a.extractPaths a.outFolder = .ok (out v) ∧
      (fs1 (out v) = none ∧ out v ∉ ext ∨ a.ask (out v) = true))
    (hdiff : (vols.map out).Nodup)
    {p : FilePart} {pre ps post : List FilePart} (hset1 : (vols.flatMap fun v => volumeParts v.2) = pre ++ (p :: ps ++ post))
    (hparts : ∀ q ∈ p :: ps, q.f.name = p.f.name ∧ q.f.packedSize = q.data.length)
    (hothers : ∀ q ∈ pre ++ post, q.f.name ≠ p.f.name) (hsolid : ∀ q ∈ p :: ps ++ post, q.flags &&& 0x10 = 0)
    (_hstored : ∀ q ∈ pre ++ post, q.f.method = 0x30)
    (hpre : Packs (SourceIs a fs1 (vols.map out ++ ext)) none pre) (hpost : Packs (SourceIs a fs1 (vols.map out ++ ext)) none post)
    (hdir : p.flags &&& 0xE0 ≠ 0xE0) (hmethod : p.f.method ≠ 0x30) (hdata : (p :: ps).flatMap (·.data) ≠ [])
    {name : Str} {d : Bytes} (hname : a.hints.lookup p.f.name = some name ∨ a.hints.lookup p.f.name = none ∧ osFileNameRar p.f.name = .ok name)
    (hkeep : a.abspath (posixJoin2 a.inFolder name) ∉ vols.map out ++ ext)
    (hfile : fs1 (a.abspath (posixJoin2 a.inFolder name)) = some d) (hlen : d.length = p.f.unpackedSize)
    {w : RarWorld} {nm : RarNames} {level : Str} {locate : PackedPart → Option Str}
    (hcompress : a.compress = fun _ => compressIn w nm locate (pre ++ (p :: ps ++ post)) pre.length)
    (hlevel : compressionParameter p.f.method = .ok level) (hcrc : p.f.fileCrc ≠ 0xFFFFFFFF) (hrepo : w.repo ≠ [])
    (hruns : ∀ q v c, ∃ r, w.run q v c = .ok r ∧ r.heads ≠ []) (hset : w.settings.mtSet = []) (hout : nm.out ≠ [])
    (hm : MadeBy w (partOf p) d ((p :: ps).flatMap (·.data)) level nm) :
    ∃ fs2 reports, reconstruct a fs1 = .ok (fs2, reports, true) ∧
      (∀ v ∈ vols, fs2 (out v) = some v.2) ∧
      ∀ q, q ∉ vols.map out → q ∉ ext → fs2 q = fs1 q := by
  refine create_reconstruct hcreate hvols hne hsrr hpart hext houts hdiff ?_
  rw [hset1]
  refine packs_append (name := p.f.name) ?_ hpre (fun q hq => hothers q (List.mem_append_left _ hq)) (by intro n r h; cases h)
  intro cur hcur
  rw [List.cons_append]
  refine Packs.starts (rest := ps.flatMap (·.data)) hcur ?_
    (packs_parts p.f.name hpost (fun q hq => hothers q (List.mem_append_right _ hq)) ps fun q hq => (hparts q (List.mem_cons_of_mem _ hq)).1)
  unfold SourceIs
  rw [if_neg hdir]
  refine ⟨name, d, hname, hkeep, hfile, .inl hlen, ?_⟩
  rw [if_neg hmethod, hcompress]
  exact mixed_made hparts hothers hsolid hdata hlevel hcrc hrepo hruns hset hout hm locate

/-! ### A set that is rebuilt -/

/-- Marker, archive header, a stored file `y` with the bytes 8 and 9, and the first part of a
compressed file `x`. -/
def exMixedVol1 : Bytes :=
  [0x52, 0x61, 0x72, 0x21, 0x1A, 0x07, 0x00] ++ [0, 0, 0x73, 0, 0, 13, 0, 0, 0, 0, 0, 0, 0] ++
    ([0, 0, 0x74, 0, 0x80, 33, 0, 2, 0, 0, 0, 2, 0, 0, 0, 0] ++ [0, 0, 0, 0] ++ [0, 0, 0, 0, 20, 0x30, 1, 0, 0, 0, 0, 0, 0x79] ++ [8, 9]) ++
    ([0, 0, 0x74, 2, 0x80, 33, 0, 2, 0, 0, 0, 6, 0, 0, 0, 0] ++ [0x92, 0x42, 0xCC, 0xB6] ++
      [0, 0, 0, 0, 20, 0x33, 1, 0, 0, 0, 0, 0, 0x78] ++ [1, 2]) ++ [0, 0, 0x7B, 0, 0, 7, 0]

def exMixedVols : List (RarIn × Bytes) :=
  [(⟨str "/in/a.rar", str "/in/a.rar", str "a.rar"⟩, exMixedVol1), (⟨str "/in/a.r00", str "/in/a.r00", str "a.r00"⟩, exPackedVol2)]

def exMixedSrr : Res Bytes :=
  createSrr exDig id 5 (fun p => if p = str "/in/a.rar" then some exMixedVol1 else if p = str "/in/a.r00" then some exPackedVol2 else none)
    (str "app") [] (exMixedVols.map (·.1)) true false

def exMixedStored : FilePart := ⟨0x8000, ⟨2, 2, 0, 0, 0, 20, 0x30, 0, str "y", [0x79], none, none⟩, [8, 9]⟩

def exMixedArgs : RecArgs :=
  { exArgs with compress := fun _ => compressIn exPackedWorld exPackedNames (fun _ => none) [exMixedStored, exPacked1, exPacked2] 1 }

def exMixedDisk (srr : Bytes) (p : Path) : Option Bytes :=
  if p = str "/r/a.srr" then some srr else if p = str "/r/x" then some [6, 6, 6, 6, 6, 6]
  else if p = str "/r/y" then some [8, 9] else none

set_option maxRecDepth 100000

/-- The hypotheses of `compressed_mixed_rebuilt_partial` hold for the set. -/
theorem exMixedRebuilt : ∃ srr fs2 reports, exMixedSrr = .ok srr ∧
    reconstruct exMixedArgs (exMixedDisk srr) = .ok (fs2, reports, true) ∧
    fs2 (str "/o/a.rar") = some exMixedVol1 ∧ fs2 (str "/o/a.r00") = some exPackedVol2 := by
  have hok : exMixedSrr.isOk = true := by decide +kernel
  cases hc : exMixedSrr with
  | error e => rw [hc] at hok; simp [Except.isOk, Except.toBool] at hok
  | ok srr =>
    obtain ⟨fs2, reports, h1, h2, _⟩ := compressed_mixed_rebuilt_partial (a := exMixedArgs) (fs1 := exMixedDisk srr) (ext := [])
      (out := fun v => str "/o/" ++ v.1.name) (p := exPacked1) (pre := [exMixedStored]) (ps := [exPacked2]) (post := [])
      (name := str "x") (d := [6, 6, 6, 6, 6, 6])
      (w := exPackedWorld) (nm := exPackedNames) (level := str "-m3") (locate := fun _ => none) hc
      (by
        intro v hv
        simp only [exMixedVols, List.mem_cons, List.not_mem_nil, or_false] at hv
        rcases hv with rfl | rfl
        · exact ⟨by decide +kernel, good_of_check (by decide +kernel)⟩
        · exact ⟨by decide +kernel, good_of_check (by decide +kernel)⟩)
      (by simp [exMixedVols]) (by simp [exMixedDisk, exMixedArgs, exArgs]) rfl
      (by intro _ x hx; cases hx)
      (by
        intro v hv
        simp only [exMixedVols, List.mem_cons, List.not_mem_nil, or_false] at hv
        rcases hv with rfl | rfl
        · exact ⟨by decide +kernel, Or.inl ⟨by
          unfold exMixedDisk
          rw [if_neg (by decide +kernel), if_neg (by decide +kernel), if_neg (by decide +kernel)], by decide +kernel⟩⟩
        · exact ⟨by decide +kernel, Or.inl ⟨by
          unfold exMixedDisk
          rw [if_neg (by decide +kernel), if_neg (by decide +kernel), if_neg (by decide +kernel)], by decide +kernel⟩⟩)
      (by decide +kernel) (by decide +kernel) (by decide +kernel) (by decide +kernel) (by decide +kernel) (by decide +kernel)
      (by
        refine Packs.starts (rest := []) (by intro n r h; cases h) ?_ Packs.nil
        unfold SourceIs
        rw [if_neg (by decide)]
        refine ⟨str "y", [8, 9], Or.inr ⟨rfl, by decide +kernel⟩, by decide +kernel, ?_, Or.inl rfl, ?_⟩
        · unfold exMixedDisk
          rw [if_neg (by decide +kernel), if_neg (by decide +kernel), if_pos (by decide +kernel)]
        · rw [if_pos (by decide)]; rfl)
      Packs.nil (by decide) (by decide) (by decide)
      (Or.inr ⟨rfl, by decide +kernel⟩) (by decide +kernel)
      (by
        unfold exMixedDisk
        rw [if_neg (by decide +kernel), if_pos (by decide +kernel)]) rfl rfl (by decide) (by decide) (by decide)
      (by
        intro q v c
        refine ⟨_, rfl, ?_⟩
        split <;> simp) rfl (by decide) exPacked_made
    refine ⟨srr, fs2, reports, rfl, h1, ?_, ?_⟩
    · exact h2 (⟨str "/in/a.rar", str "/in/a.rar", str "a.rar"⟩, exMixedVol1) (by simp [exMixedVols])
    · exact h2 (⟨str "/in/a.r00", str "/in/a.r00", str "a.r00"⟩, exPackedVol2) (by simp [exMixedVols])

end Rescene.Props
