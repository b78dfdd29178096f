import Verif.Spec.Compressed
import Verif.Props.RarSearch
import Verif.Props.RarSets
import Verif.Props.ReconstructExample
/-
C107: a set with a compressed file is rebuilt byte for byte with the executables of a repository.
-/
namespace Rescene.Props
open Rescene Rescene.Spec

theorem search_eq_any {w : RarWorld} {archived : Archived} {blocks : List PackedPart} {i : Nat} {b : PackedPart} {level : Str}
    (hlevel : compressionParameter b.method = .ok level) (hcrc : b.crc ≠ 0xFFFFFFFF) (hrepo : w.repo ≠ []) (hdata : fullSize b blocks ≠ 0)
    (hruns : ∀ p v c, ∃ r, w.run p v c = .ok r ∧ r.heads ≠ [])
    (hsolid : b.flags &&& 0x10 = 0) (d : Bytes) (nm : RarNames) (hout : nm.out ≠ []) :
    ∃ n, n ≤ d.length ∧ TestPiece w b (fullSize b blocks) d level nm n ∧
      searchVersion w archived blocks i b d nm.out nm.piece d.length none =
        searchLoop w (d.take n) b (previousSource archived blocks i) (rarExecutables (·.older) (previousGood archived) w.repo)
          { level := level, dict := dictParameter b.flags, solid := false, threads := none,
            split := if n = d.length then 0 else n * 3 / 5, archive := nm.out, before := [], store := [nm.piece], after := [], all := [] } := by
  obtain ⟨window, hw⟩ := dictSize_some b.flags
  have hr : ∃ newest, w.repo.getLast? = some newest := by
    cases hx : w.repo.getLast? with
    | none => exact absurd (List.getLast?_eq_none_iff.mp hx) hrepo
    | some x => exact ⟨x, rfl⟩
  obtain ⟨newest, hnew⟩ := hr
  have hs : decide (b.flags &&& 0x10 ≠ 0) = false := by simp [hsolid]
  unfold searchVersion
  rw [hlevel]
  simp only [ok_bind]
  rw [if_neg hcrc, hnew, hw, hs]
  dsimp only
  rw [if_neg hdata]
  have hk : ∀ (args : RarArgs) (q : Bytes), ∃ m, (w.run q newest (args.arglist newest) >>= packedSizeOf) = .ok m := by
    intro args q
    obtain ⟨r, h1, h2⟩ := hruns q newest (args.arglist newest)
    rw [h1, ok_bind]
    unfold packedSizeOf
    cases hh : r.heads with
    | nil => exact absurd hh h2
    | cons x t => exact ⟨_, rfl⟩
  obtain ⟨piece, hg⟩ := grabPiece_ok _ d d.length b.psize (pieceAmount d.length (fullSize b blocks) b.psize window)
    (hk { level := level, dict := dictParameter b.flags, solid := false, threads := none,
          split := 0, archive := nm.out, before := [], store := [nm.piece], after := [], all := [] }) growSteps []
  obtain ⟨n, h1, h2, h3⟩ := grabPiece_spec _ _ _ _ _ _ _ _ hg (by decide)
  rw [hg]
  refine ⟨n, h1, ?_, ?_⟩
  · rcases h3 with h3 | ⟨s, h3, h4⟩ | ⟨i, h3, h4⟩
    · exact .inl h3
    · right; left
      simp only [bind_eq_ok] at h3
      obtain ⟨r, h3, h5⟩ := h3
      rw [arglist_command _ newest (level_ne _ _ hlevel) (dict_ne _) hout rfl] at h3
      unfold packedSizeOf at h5
      split at h5
      · cases h5
      · rename_i hd tl hh
        cases h5
        rw [h2] at h3
        exact ⟨newest, r, hd, tl, hnew, h3, hh, h4⟩
    · right; right
      have : i = 97 := by
        have e : growSteps.getLast? = some 97 := by decide
        rw [e] at h3
        cases h3
        rfl
      subst this
      exact ⟨window, hw, h4⟩
  · dsimp only
    have hl : piece.length = n := by rw [h2, List.length_take]; omega
    rw [hl, ← h2]
    by_cases hn : n = d.length
    · rw [if_pos hn, if_neg (by omega)]; rfl
    · rw [if_neg hn, if_pos hn]; rfl

theorem search_eq_long {w : RarWorld} {blocks : List PackedPart} {i : Nat} {b : PackedPart} {level : Str}
    (h : Searchable w [] blocks i b level) (hsolid : b.flags &&& 0x10 = 0) (d : Bytes) (nm : RarNames) (hout : nm.out ≠ []) :
    ∃ n, n ≤ d.length ∧ TestPiece w b (fullSize b blocks) d level nm n ∧
      searchVersion w [] blocks i b d nm.out nm.piece d.length none =
        searchLoop w (d.take n) b (.ok none) (rarExecutables (·.older) [] w.repo)
          { level := level, dict := dictParameter b.flags, solid := false, threads := none,
            split := if n = d.length then 0 else n * 3 / 5, archive := nm.out, before := [], store := [nm.piece], after := [], all := [] } := by
  obtain ⟨n, h1, h2, h3⟩ := search_eq_any (archived := []) (i := i) h.level h.crc h.repo h.data h.runs hsolid d nm hout
  refine ⟨n, h1, h2, ?_⟩
  rw [h3]
  rfl

theorem attempts_alone (s : MtSettings) (v : RarVersion) (g : RarArgs) : ∀ (vs : List RarVersion) (a : RarArgs),
    a.before = [] → a.after = [] → (v, g) ∈ attempts s none vs a → v ∈ vs ∧ ∃ c, g = { a with threads := c } := by
  intro vs
  induction vs with
  | nil => intro a _ _ h; cases h
  | cons u us ih =>
    intro a hb ha h
    rw [attempts, List.mem_append, List.mem_append] at h
    rcases h with h | h | h
    · obtain ⟨c, _, hc⟩ := List.mem_map.mp h
      cases hc
      exact ⟨by simp, c, rfl⟩
    · simp at h
    · obtain ⟨h1, c, h2⟩ := ih _ rfl rfl h
      exact ⟨List.mem_cons_of_mem _ h1, c, by rw [h2]; cases a; cases hb; cases ha; rfl⟩

/-- The search finds an executable that passes the test, and the packed data that it makes is the original one. -/
theorem made_found_full {w : RarWorld} {blocks : List PackedPart} {i : Nat} {b : PackedPart} {level : Str} {d packed : Bytes} {nm : RarNames}
    (h : Searchable w [] blocks i b level) (hsolid : b.flags &&& 0x10 = 0) (hset : w.settings.mtSet = []) (hout : nm.out ≠ [])
    (hsize : fullSize b blocks = packed.length) (hm : MadeBy w b d packed level nm) (next : Option Str) :
    ∃ v a, compressedFile w [] blocks i b d nm.src nm.out nm.piece d.length next false = .ok (v, a, packed) ∧ v ∈ w.repo ∧
      ∃ c split n r, TestPiece w b packed.length d level nm n ∧
        w.run (d.take n) v (command v level (dictParameter b.flags) false c split nm.out [nm.piece]) = .ok r ∧ Begins b.psize b.crc r := by
  obtain ⟨n, hn, ht, heq⟩ := search_eq_long h hsolid d nm hout
  obtain ⟨acc, ha, hb⟩ := tryVersion_ok w b h.crc h.runs (d.take n)
  rw [hsize] at ht
  have hmem : ∀ v, v ∈ rarExecutables (·.older) [] w.repo ↔ v ∈ w.repo := by
    intro v; rw [mem_executables]; simp
  have hfound : ∃ v g, searchVersion w [] blocks i b d nm.out nm.piece d.length none = .ok (some (v, g)) ∧ v ∈ w.repo ∧
      (∃ c, g = { level := level, dict := dictParameter b.flags, solid := false, threads := c,
                  split := if n = d.length then 0 else n * 3 / 5, archive := nm.out, before := [],
                  store := [nm.piece], after := [], all := [] }) ∧
      acc v g = true := by
    rw [heq, search_first w (d.take n) b none acc ha _ _ rfl]
    cases hf : List.find? (fun x => acc x.1 x.2) (attempts w.settings none (rarExecutables (·.older) [] w.repo)
        { level := level, dict := dictParameter b.flags, solid := false, threads := none,
          split := if n = d.length then 0 else n * 3 / 5, archive := nm.out, before := [], store := [nm.piece], after := [], all := [] }) with
    | none =>
      exfalso
      obtain ⟨v, hv, c, hc, hmade⟩ := hm.made
      have hmm := mem_attempts w.settings none v c (mem_counts w.settings hset v c hc)
        (rarExecutables (·.older) [] w.repo)
        { level := level, dict := dictParameter b.flags, solid := false, threads := none,
          split := if n = d.length then 0 else n * 3 / 5, archive := nm.out, before := [], store := [nm.piece], after := [], all := [] }
        ((hmem v).mpr hv) rfl rfl
      have hno := List.find?_eq_none.mp hf _ hmm
      dsimp only at hno
      obtain ⟨r, hr, _⟩ := h.runs (d.take n) v (command v level (dictParameter b.flags) false c
        (if n = d.length then 0 else n * 3 / 5) nm.out [nm.piece])
      refine hno ((hb _ _ r ?_).mpr (hmade n hn ht r hr))
      rw [arglist_command _ v (level_ne _ _ h.level) (dict_ne _) hout rfl]
      exact hr
    | some x =>
      obtain ⟨h1, c, h2⟩ := attempts_alone w.settings x.1 x.2 _ _ rfl rfl (List.mem_of_find?_eq_some hf)
      have hx := List.find?_some hf
      exact ⟨x.1, x.2, rfl, (hmem _).mp h1, ⟨c, h2⟩, hx⟩
  obtain ⟨v, g, hs, hv, ⟨c, rfl⟩, hacc⟩ := hfound
  obtain ⟨r, hr, _⟩ := h.runs (d.take n) v (command v level (dictParameter b.flags) false c
    (if n = d.length then 0 else n * 3 / 5) nm.out [nm.piece])
  have hbeg := (hb v _ r (by
    rw [arglist_command _ v (level_ne _ _ h.level) (dict_ne _) hout rfl]
    exact hr)).mp hacc
  unfold compressedFile searchAgain sourceFiles
  rw [hs]
  simp only [ok_bind, Option.isNone_some, Bool.or_false, Bool.false_eq_true, if_false]
  obtain ⟨r', h1, h2⟩ := hm.agree v hv c
    (if b.usize < fullSize b blocks then volumeSplit (fullSize b blocks) else if n = d.length then 0 else n * 3 / 5) n _ r ht hr hbeg
  refine ⟨v, { level := level, dict := dictParameter b.flags, solid := false, threads := c,
                  split := if b.usize < fullSize b blocks then volumeSplit (fullSize b blocks) else if n = d.length then 0 else n * 3 / 5,
                  archive := nm.out, before := [], store := [nm.src], after := [], all := [] }, ?_, hv, c, _, n, r, ht, hr, hbeg⟩
  rw [arglist_command _ v (level_ne _ _ h.level) (dict_ne _) hout rfl]
  simp only [List.nil_append, List.append_nil]
  rw [h1, ok_bind, h2, if_neg (by omega)]

/-- C107: the search finds an executable and the packed data that it makes is the original one. -/
theorem made_found {w : RarWorld} {blocks : List PackedPart} {i : Nat} {b : PackedPart} {level : Str} {d packed : Bytes} {nm : RarNames}
    (h : Searchable w [] blocks i b level) (hsolid : b.flags &&& 0x10 = 0) (hset : w.settings.mtSet = []) (hout : nm.out ≠ [])
    (hsize : fullSize b blocks = packed.length) (hm : MadeBy w b d packed level nm) (next : Option Str) :
    ∃ v a, compressedFile w [] blocks i b d nm.src nm.out nm.piece d.length next false = .ok (v, a, packed) := by
  obtain ⟨v, a, h, _⟩ := made_found_full h hsolid hset hout hsize hm next
  exact ⟨v, a, h⟩

theorem fullSize_parts (name : Str) : ∀ (ps : List FilePart) (size : Nat), (∀ q ∈ ps, q.f.name = name ∧ q.f.packedSize = q.data.length) →
    fullPackedSize name size ((ps.map partOf).map fun p => (p.name, p.psize)) = size + (ps.flatMap (·.data)).length := by
  intro ps
  induction ps with
  | nil => intro size _; simp [fullPackedSize]
  | cons q qs ih =>
    intro size h
    rw [List.map_cons, List.map_cons, fullPackedSize, if_pos (show (partOf q).name = name from (h q (by simp)).1), ih _ fun x hx => h x (List.mem_cons_of_mem _ hx)]
    rw [List.flatMap_cons, List.length_append]
    have := (h q (by simp)).2
    show size + q.f.packedSize + _ = _
    omega

/-- C107: for the first file of a set that is one compressed file in parts, the packed data that is
made is that of all parts. -/
theorem first_made {w : RarWorld} {p : FilePart} {ps : List FilePart} {level : Str} {d : Bytes} {nm : RarNames}
    (hparts : ∀ q ∈ p :: ps, q.f.name = p.f.name ∧ q.f.packedSize = q.data.length ∧ q.flags &&& 0x10 = 0)
    (hdata : (p :: ps).flatMap (·.data) ≠ [])
    (hlevel : compressionParameter p.f.method = .ok level) (hcrc : p.f.fileCrc ≠ 0xFFFFFFFF) (hrepo : w.repo ≠ [])
    (hruns : ∀ q v c, ∃ r, w.run q v c = .ok r ∧ r.heads ≠ []) (hset : w.settings.mtSet = []) (hout : nm.out ≠ [])
    (hm : MadeBy w (partOf p) d ((p :: ps).flatMap (·.data)) level nm) :
    compressFirst w nm (p :: ps) d = .ok ((p :: ps).flatMap (·.data)) := by
  have hsize : fullSize (partOf p) (partOf p :: ps.map partOf) = ((p :: ps).flatMap (·.data)).length := by
    have := fullSize_parts p.f.name (p :: ps) 0 fun q hq => ⟨(hparts q hq).1, (hparts q hq).2.1⟩
    rw [Nat.zero_add] at this
    exact this
  have hsolid : (partOf p).flags &&& 0x10 = 0 := (hparts p (by simp)).2.2
  have hs : Searchable w [] (partOf p :: ps.map partOf) 0 (partOf p) level :=
    ⟨hlevel, hcrc, hrepo, by rw [hsize]; exact fun h0 => hdata (List.length_eq_zero_iff.mp h0), hruns, none, rfl⟩
  have hplan : factoryPlan (fun _ => false) 0 (partOf p) (partOf p :: ps.map partOf) =
      .ok (.alone (nextBlock 0 (partOf p :: ps.map partOf))) := by
    have hf : followedBySolid 0 (partOf p :: ps.map partOf) = none := by
      unfold followedBySolid
      cases ps with
      | nil => rfl
      | cons q qs =>
        have : (partOf q).flags &&& 0x10 = 0 := (hparts q (by simp)).2.2
        simp [this]
    unfold factoryPlan
    rw [hf]
    simp [hsolid]
  unfold compressFirst
  rw [List.map_cons]
  dsimp only
  rw [hplan]
  dsimp only
  obtain ⟨v, a, h⟩ := made_found hs hsolid hset hout hsize hm ((nextBlock 0 (partOf p :: ps.map partOf)).map fun _ => nm.src)
  rw [h]
  rfl

theorem packs_rest {holds : FilePart → Bytes → Prop} (name : Str) : ∀ (ps : List FilePart), (∀ q ∈ ps, q.f.name = name) →
    Packs holds (some (name, ps.flatMap (·.data))) ps := by
  intro ps
  induction ps with
  | nil => intro _; exact Packs.nil
  | cons q qs ih =>
    intro h
    have hq := h q (by simp)
    subst hq
    exact Packs.continues (ih fun x hx => h x (List.mem_cons_of_mem _ hx))

/-- C107: an SRR made of a set of volumes with one compressed file is turned into the same volumes
again, given the file and a repository with an executable that made it. -/
theorem compressed_rebuilt_partial {dig : Nat → Bool} {lower : Str → Str} {fuel : Nat} {fs0 : FS} {app : Str}
    {stored : List (Str × Path)} {vols : List (RarIn × Bytes)} {compressed oso : Bool} {srr : Bytes}
    (hcreate : createSrr dig lower fuel fs0 app stored (vols.map (·.1)) compressed oso = .ok srr)
    (hvols : ∀ v ∈ vols, fs0 v.1.exact = some v.2 ∧ GoodVolume v.2) (hne : vols ≠ [])
    {a : RecArgs} {fs1 : FS} (hsrr : fs1 a.srr = some srr) (hpart : a.part = [])
    {ext : List Path}
    (hext : a.extractFiles = true → ∀ x ∈ stored, ∃ p ∈ ext, opath x.1 a.extractPaths a.outFolder = .ok p ∧ p ≠ a.srr)
    {out : RarIn × Bytes → Path}
    (houts : ∀ v ∈ vols, opath v.1.name a.extractPaths a.outFolder = .ok (out v) ∧
      (fs1 (out v) = none ∧ out v ∉ ext ∨ a.ask (out v) = true))
    (hdiff : (vols.map out).Nodup)
    {p : FilePart} {ps : List FilePart} (hone : (vols.flatMap fun v => volumeParts v.2) = p :: ps)
    (hparts : ∀ q ∈ p :: ps, q.f.name = p.f.name ∧ q.f.packedSize = q.data.length ∧ q.flags &&& 0x10 = 0)
    (hdir : p.flags &&& 0xE0 ≠ 0xE0) (hmethod : p.f.method ≠ 0x30) (hdata : (p :: ps).flatMap (·.data) ≠ [])
    {name : Str} {d : Bytes} (hname : a.hints.lookup p.f.name = some name ∨ a.hints.lookup p.f.name = none ∧ osFileNameRar p.f.name = .ok name)
    (hkeep : a.abspath (posixJoin2 a.inFolder name) ∉ vols.map out ++ ext)
    (hfile : fs1 (a.abspath (posixJoin2 a.inFolder name)) = some d) (hlen : d.length = p.f.unpackedSize)
    {w : RarWorld} {nm : RarNames} {level : Str} (hcompress : a.compress = fun _ => compressFirst w nm (p :: ps))
    (hlevel : compressionParameter p.f.method = .ok level) (hcrc : p.f.fileCrc ≠ 0xFFFFFFFF) (hrepo : w.repo ≠ [])
    (hruns : ∀ q v c, ∃ r, w.run q v c = .ok r ∧ r.heads ≠ []) (hset : w.settings.mtSet = []) (hout : nm.out ≠ [])
    (hm : MadeBy w (partOf p) d ((p :: ps).flatMap (·.data)) level nm) :
    ∃ fs2 reports, reconstruct a fs1 = .ok (fs2, reports, true) ∧
      (∀ v ∈ vols, fs2 (out v) = some v.2) ∧
      ∀ q, q ∉ vols.map out → q ∉ ext → fs2 q = fs1 q := by
  refine create_reconstruct hcreate hvols hne hsrr hpart hext houts hdiff ?_
  rw [hone]
  refine Packs.starts (rest := ps.flatMap (·.data)) (by intro n r h; cases h) ?_
    (packs_rest p.f.name ps fun q hq => (hparts q (List.mem_cons_of_mem _ hq)).1)
  unfold SourceIs
  rw [if_neg hdir]
  refine ⟨name, d, hname, hkeep, hfile, .inl hlen, ?_⟩
  rw [if_neg hmethod, hcompress]
  exact first_made hparts hdata hlevel hcrc hrepo hruns hset hout hm

/-! ### A set that is rebuilt -/

/-- Marker, archive header and a compressed file `x` of six bytes: a part with these flags, CRC and
packed data. -/
def exPackedHead (flags : UInt8) (crc packed : Bytes) : Bytes :=
  [0x52, 0x61, 0x72, 0x21, 0x1A, 0x07, 0x00] ++ [0, 0, 0x73, 0, 0, 13, 0, 0, 0, 0, 0, 0, 0] ++
    ([0, 0, 0x74, flags, 0x80, 33, 0, UInt8.ofNat packed.length, 0, 0, 0, 6, 0, 0, 0, 0] ++ crc ++
      [0, 0, 0, 0, 20, 0x33, 1, 0, 0, 0, 0, 0, 0x78] ++ packed)

/-- The volumes: two and three bytes of packed data. -/
def exPackedVol1 : Bytes := exPackedHead 2 [0x92, 0x42, 0xCC, 0xB6] [1, 2] ++ [0, 0, 0x7B, 0, 0, 7, 0]
def exPackedVol2 : Bytes := exPackedHead 1 [0xF4, 0x99, 0x0B, 0x47] [3, 4, 5] ++ [0, 0, 0x7B, 0, 0, 7, 0]

def exPackedDisk (p : Path) : Option Bytes :=
  if p = str "/in/a.rar" then some exPackedVol1 else if p = str "/in/a.r00" then some exPackedVol2 else none

def exPackedVols : List (RarIn × Bytes) :=
  [(⟨str "/in/a.rar", str "/in/a.rar", str "a.rar"⟩, exPackedVol1), (⟨str "/in/a.r00", str "/in/a.r00", str "a.r00"⟩, exPackedVol2)]

def exPackedSrr : Res Bytes := createSrr exDig id 5 exPackedDisk (str "app") [] (exPackedVols.map (·.1)) true false

/-- The parts of the file. -/
def exPacked1 : FilePart := ⟨0x8002, ⟨2, 6, 0, 0xB6CC4292, 0, 20, 0x33, 0, str "x", [0x78], none, none⟩, [1, 2]⟩
def exPacked2 : FilePart := ⟨0x8001, ⟨3, 6, 0, 0x470B99F4, 0, 20, 0x33, 0, str "x", [0x78], none, none⟩, [3, 4, 5]⟩

/-- RAR 3.00 made the set; RAR 4.20 makes something else. -/
def exPackedWorld : RarWorld :=
  { settings := {}, repo := [exRar300, exRar420],
    run := fun _ v _ => .ok (if v = exRar300 then ⟨[1, 2, 3, 4, 5], [(7, 5)]⟩ else ⟨[9, 9, 9, 9, 9], [(8, 5)]⟩),
    full := fun v _ => .ok (if v = exRar300 then ⟨[1, 2, 3, 4, 5], []⟩ else ⟨[9, 9, 9, 9, 9], []⟩) }

def exPackedNames : RarNames := ⟨str "/r/x", str "/t/o.rar", str "/t/x"⟩

def exPackedArgs : RecArgs := { exArgs with compress := fun _ => compressFirst exPackedWorld exPackedNames [exPacked1, exPacked2] }

def exPackedDisk1 (srr : Bytes) (p : Path) : Option Bytes :=
  if p = str "/r/a.srr" then some srr else if p = str "/r/x" then some [6, 6, 6, 6, 6, 6] else none

set_option maxRecDepth 100000

theorem exPacked_begins : Begins 2 0xB6CC4292 ⟨[1, 2, 3, 4, 5], [(7, 5)]⟩ ∧ ¬ Begins 2 0xB6CC4292 ⟨[9, 9, 9, 9, 9], [(8, 5)]⟩ := by
  constructor
  · exact .inl ⟨by decide, by decide +kernel⟩
  · rintro (⟨_, h⟩ | ⟨h, _⟩)
    · exact absurd h (by decide +kernel)
    · simp at h

theorem exPacked_made : MadeBy exPackedWorld (partOf exPacked1) [6, 6, 6, 6, 6, 6] [1, 2, 3, 4, 5] (str "-m3") exPackedNames := by
  constructor
  · refine ⟨exRar300, by simp [exPackedWorld], none, by unfold Threads; rw [if_neg (by decide)], ?_⟩
    intro n _ _ r hr
    unfold exPackedWorld at hr
    simp only [if_true, Except.ok.injEq] at hr
    subst hr
    exact exPacked_begins.1
  · intro v hv c split n split' r _ hr hb
    unfold exPackedWorld at hr hv ⊢
    simp only [Except.ok.injEq] at hr
    by_cases h : v = exRar300
    · exact ⟨_, rfl, by rw [if_pos h]⟩
    · rw [if_neg h] at hr
      subst hr
      exact absurd hb exPacked_begins.2

/-- The hypotheses of `compressed_rebuilt_partial` hold for the set. -/
theorem exPackedRebuilt : ∃ srr fs2 reports, exPackedSrr = .ok srr ∧
    reconstruct exPackedArgs (exPackedDisk1 srr) = .ok (fs2, reports, true) ∧
    fs2 (str "/o/a.rar") = some exPackedVol1 ∧ fs2 (str "/o/a.r00") = some exPackedVol2 := by
  have hok : exPackedSrr.isOk = true := by decide +kernel
  cases hc : exPackedSrr with
  | error e => rw [hc] at hok; simp [Except.isOk, Except.toBool] at hok
  | ok srr =>
    obtain ⟨fs2, reports, h1, h2, _⟩ := compressed_rebuilt_partial (a := exPackedArgs) (fs1 := exPackedDisk1 srr) (ext := [])
      (out := fun v => str "/o/" ++ v.1.name) (p := exPacked1) (ps := [exPacked2]) (name := str "x") (d := [6, 6, 6, 6, 6, 6])
      (w := exPackedWorld) (nm := exPackedNames) (level := str "-m3") hc
      (by
        intro v hv
        simp only [exPackedVols, List.mem_cons, List.not_mem_nil, or_false] at hv
        rcases hv with rfl | rfl
        · exact ⟨by decide +kernel, good_of_check (by decide +kernel)⟩
        · exact ⟨by decide +kernel, good_of_check (by decide +kernel)⟩)
      (by simp [exPackedVols]) (by simp [exPackedDisk1, exPackedArgs, exArgs]) rfl
      (by intro _ x hx; cases hx)
      (by
        intro v hv
        simp only [exPackedVols, List.mem_cons, List.not_mem_nil, or_false] at hv
        rcases hv with rfl | rfl
        · exact ⟨by decide +kernel, Or.inl ⟨by
          unfold exPackedDisk1
          rw [if_neg (by decide +kernel), if_neg (by decide +kernel)], by decide +kernel⟩⟩
        · exact ⟨by decide +kernel, Or.inl ⟨by
          unfold exPackedDisk1
          rw [if_neg (by decide +kernel), if_neg (by decide +kernel)], by decide +kernel⟩⟩)
      (by decide +kernel) (by decide +kernel) (by decide +kernel) (by decide) (by decide) (by decide)
      (Or.inr ⟨rfl, by decide +kernel⟩) (by decide +kernel)
      (by
        unfold exPackedDisk1
        rw [if_neg (by decide +kernel), if_pos (by decide +kernel)]) rfl rfl (by decide) (by decide) (by decide)
      (by
        intro q v c
        refine ⟨_, rfl, ?_⟩
        split <;> simp) rfl (by decide) exPacked_made
    refine ⟨srr, fs2, reports, rfl, h1, ?_, ?_⟩
    · exact h2 (⟨str "/in/a.rar", str "/in/a.rar", str "a.rar"⟩, exPackedVol1) (by simp [exPackedVols])
    · exact h2 (⟨str "/in/a.r00", str "/in/a.r00", str "a.r00"⟩, exPackedVol2) (by simp [exPackedVols])

/-- A file in one part: three bytes of packed data. -/
def exSingle : Bytes := exPackedHead 0 [0x92, 0x42, 0xCC, 0xB6] [1, 2, 3] ++ [0, 0, 0x7B, 0, 0, 7, 0]

def exSinglePart : FilePart := ⟨0x8000, ⟨3, 6, 0, 0xB6CC4292, 0, 20, 0x33, 0, str "x", [0x78], none, none⟩, [1, 2, 3]⟩

/-- Two executables that pack the file to the same size but differently. -/
def exSingleWorld : RarWorld :=
  { settings := {}, repo := [exRar300, exRar420],
    run := fun _ v _ => .ok (if v = exRar300 then ⟨[1, 2, 3], [(0xB6CC4292, 3)]⟩ else ⟨[9, 9, 9], [(0xB6CC4292, 3)]⟩),
    full := fun v _ => .ok (if v = exRar300 then ⟨[1, 2, 3], []⟩ else ⟨[9, 9, 9], []⟩) }

def exSingleArgs : RecArgs := { exArgs with compress := fun _ => compressFirst exSingleWorld exPackedNames [exSinglePart] }

/-- C107: a file in one part is packed by the first executable that gives the right size.  The
volume is wrong, although an executable that makes the right one is at hand, and nothing is
reported. -/
theorem single_wrong : ∃ srr fs2,
    createSrr exDig id 5 (fun p => if p = str "/in/a.rar" then some exSingle else none) (str "app") []
      [⟨str "/in/a.rar", str "/in/a.rar", str "a.rar"⟩] true false = .ok srr ∧
    volumeParts exSingle = [exSinglePart] ∧
    (exSingleWorld.full exRar300 []).map (·.packed) = .ok exSinglePart.data ∧
    reconstruct exSingleArgs (exPackedDisk1 srr) = .ok (fs2, [], true) ∧
    ∃ bad, fs2 (str "/o/a.rar") = some bad ∧ bad.length = exSingle.length ∧ bad ≠ exSingle := by
  let c := createSrr exDig id 5 (fun p => if p = str "/in/a.rar" then some exSingle else none) (str "app") []
      [⟨str "/in/a.rar", str "/in/a.rar", str "a.rar"⟩] true false
  have h1 : ∃ srr, c = .ok srr ∧ (match reconstruct exSingleArgs (exPackedDisk1 srr) with
      | .ok (fs2, r, b) => decide (r = []) && b && (match fs2 (str "/o/a.rar") with
        | some bad => decide (bad.length = exSingle.length) && decide (bad ≠ exSingle) | none => false)
      | .error _ => false) = true := by
    have : (match c with
      | .ok srr => (match reconstruct exSingleArgs (exPackedDisk1 srr) with
        | .ok (fs2, r, b) => decide (r = []) && b && (match fs2 (str "/o/a.rar") with
          | some bad => decide (bad.length = exSingle.length) && decide (bad ≠ exSingle) | none => false)
        | .error _ => false)
      | .error _ => false) = true := by decide +kernel
    cases hc : c with
    | error e => rw [hc] at this; cases this
    | ok srr => rw [hc] at this; exact ⟨srr, rfl, this⟩
  obtain ⟨srr, h1, h2⟩ := h1
  split at h2
  · rename_i fs2 r b hr
    simp only [Bool.and_eq_true, decide_eq_true_eq] at h2
    obtain ⟨⟨rfl, rfl⟩, h2⟩ := h2
    split at h2
    · rename_i bad hb
      simp only [Bool.and_eq_true, decide_eq_true_eq] at h2
      exact ⟨srr, fs2, h1, by decide +kernel, by decide +kernel, hr, bad, hb, h2⟩
    · cases h2
  · cases h2

end Rescene.Props
