import Verif.Props.ReconstructExample
import Verif.Props.Independent
import Verif.Props.Damage
/-
C108: what reconstruction reports about checksums.
-/
namespace Rescene.Props
open Rescene Rescene.Spec

/-- C108: reconstruction reports exactly the checksums in the headers that the packed data does not have, in the order of the
volumes; nothing when the checks are switched off. -/
theorem create_reports_partial {dig : Nat → Bool} {lower : Str → Str} {fuel : Nat} {fs0 : FS} {app : Str}
    {stored : List (Str × Path)} {vols : List (RarIn × Bytes)} {compressed oso : Bool} {srr : Bytes}
    (hcreate : createSrr dig lower fuel fs0 app stored (vols.map (·.1)) compressed oso = .ok srr)
    (hvols : ∀ v ∈ vols, fs0 v.1.exact = some v.2 ∧ GoodVolume v.2) (hne : vols ≠ [])
    {a : RecArgs} {fs1 : FS} (hsrr : fs1 a.srr = some srr) (hpart : a.part = [])
    {ext : List Path}
    (hext : a.extractFiles = true → ∀ x ∈ stored, ∃ p ∈ ext, opath x.1 a.extractPaths a.outFolder = .ok p ∧ p ≠ a.srr)
    {out : RarIn × Bytes → Path}
    (hout : ∀ v ∈ vols, opath v.1.name a.extractPaths a.outFolder = .ok (out v) ∧
      (fs1 (out v) = none ∧ out v ∉ ext ∨ a.ask (out v) = true))
    (hdiff : (vols.map out).Nodup)
    (hsrc : Packs (SourceIs a fs1 (vols.map out ++ ext)) none (vols.flatMap fun v => volumeParts v.2)) :
    ∃ fs2, reconstruct a fs1 = .ok (fs2, if a.skipCrc = true then [] else wrongParts none (vols.flatMap fun v => volumeParts v.2), true) ∧
      (∀ v ∈ vols, fs2 (out v) = some v.2) ∧
      ∀ q, q ∉ vols.map out → q ∉ ext → fs2 q = fs1 q := by
  obtain ⟨files, osos, f1, f2, f3, f4, f5⟩ := create_pieces hcreate hvols
  obtain ⟨fs2, reports, h1, h2, h3, h4⟩ := written_reports f5 f3 (fun v hv => (hvols v hv).2) hne hsrr hpart (fun hx x hxm => by
    have : x.1 ∈ stored.map (·.1) := by rw [← f1]; exact List.mem_map_of_mem hxm
    obtain ⟨y, hy, hyx⟩ := List.mem_map.mp this
    obtain ⟨p, e1, e2, e3⟩ := hext hx y hy
    exact ⟨p, e1, by rw [← hyx]; exact e2, e3⟩) hout hdiff hsrc
  exact ⟨fs2, by rw [h1, h4], h2, h3⟩

/-- C108: the same when the files on disk are not the ones that were archived.  The SRR was made from the volumes `vols`; the
files on disk make the volumes `other`, which only have other packed data.  These are what is written, and the checksums the
data on disk does not have are reported. -/
theorem other_files_reported_partial {dig : Nat → Bool} {lower : Str → Str} {fuel : Nat} {fs0 : FS} {app : Str}
    {stored : List (Str × Path)} {vols : List (RarIn × Bytes)} {compressed : Bool} {srr : Bytes}
    (hcreate : createSrr dig lower fuel fs0 app stored (vols.map (·.1)) compressed false = .ok srr)
    (hvols : ∀ v ∈ vols, fs0 v.1.exact = some v.2 ∧ openReader v.2 = .ok .rar) (hne : vols ≠ [])
    (hstored : ∀ x ∈ stored, ∀ v ∈ vols, x.2 ≠ v.1.exact)
    {other : Path → Bytes}
    (hother : ∀ v ∈ vols, SameButPacked v.2 (other v.1.exact) ∧ GoodVolume (other v.1.exact))
    {a : RecArgs} {fs1 : FS} (hsrr : fs1 a.srr = some srr) (hpart : a.part = [])
    {ext : List Path}
    (hext : a.extractFiles = true → ∀ x ∈ stored, ∃ p ∈ ext, opath x.1 a.extractPaths a.outFolder = .ok p ∧ p ≠ a.srr)
    {out : RarIn → Path}
    (hout : ∀ v ∈ vols, opath v.1.name a.extractPaths a.outFolder = .ok (out v.1) ∧
      (fs1 (out v.1) = none ∧ out v.1 ∉ ext ∨ a.ask (out v.1) = true))
    (hdiff : (vols.map fun v => out v.1).Nodup)
    (hsrc : Packs (SourceIs a fs1 ((vols.map fun v => out v.1) ++ ext)) none (vols.flatMap fun v => volumeParts (other v.1.exact))) :
    ∃ fs2, reconstruct a fs1 =
        .ok (fs2, if a.skipCrc = true then [] else wrongParts none (vols.flatMap fun v => volumeParts (other v.1.exact)), true) ∧
      (∀ v ∈ vols, fs2 (out v.1) = some (other v.1.exact)) ∧
      ∀ q, q ∉ (vols.map fun v => out v.1) → q ∉ ext → fs2 q = fs1 q := by
  obtain ⟨fs0', hfs⟩ : ∃ fs0' : FS, fs0' = fun p => if p ∈ vols.map (·.1.exact) then some (other p) else fs0 p := ⟨_, rfl⟩
  have hin : ∀ v ∈ vols, fs0' v.1.exact = some (other v.1.exact) := by
    intro v hv
    rw [hfs]
    dsimp only
    rw [if_pos (List.mem_map_of_mem (f := fun v : RarIn × Bytes => v.1.exact) hv)]
  have hcreate' : createSrr dig lower fuel fs0' app stored (vols.map (·.1)) compressed false = .ok srr := by
    rw [← hcreate]
    apply srr_packed_independent
    · intro x hx
      rw [hfs]
      dsimp only
      rw [if_neg]
      intro hc
      obtain ⟨v, hv, he⟩ := List.mem_map.1 hc
      exact hstored x hx v hv he.symm
    · intro r hr
      obtain ⟨v, hv, rfl⟩ := List.mem_map.1 hr
      exact ⟨v.2, other v.1.exact, (hvols v hv).1, hin v hv, (hvols v hv).2, (hother v hv).1⟩
  obtain ⟨vols', hv'⟩ : ∃ vols' : List (RarIn × Bytes), vols' = vols.map fun v => (v.1, other v.1.exact) := ⟨_, rfl⟩
  have e1 : vols'.map (·.1) = vols.map (·.1) := by rw [hv', List.map_map]; rfl
  have e2 : (vols'.map fun v => out v.1) = vols.map fun v => out v.1 := by rw [hv', List.map_map]; rfl
  have e3 : (vols'.flatMap fun v => volumeParts v.2) = vols.flatMap fun v => volumeParts (other v.1.exact) := by
    rw [hv', List.flatMap_map]
  rw [← e1] at hcreate'
  obtain ⟨fs2, h1, h2, h3⟩ := create_reports_partial (out := fun v => out v.1) hcreate'
    (by
      intro v hv
      rw [hv'] at hv
      obtain ⟨w, hw, rfl⟩ := List.mem_map.1 hv
      exact ⟨hin w hw, (hother w hw).2⟩)
    (by rw [hv']; simpa using hne) hsrr hpart hext
    (by
      intro v hv
      rw [hv'] at hv
      obtain ⟨w, hw, rfl⟩ := List.mem_map.1 hv
      exact hout w hw)
    (by rw [e2]; exact hdiff) (by rw [e2, e3]; exact hsrc)
  rw [e3] at h1
  rw [e2] at h3
  refine ⟨fs2, h1, fun v hv => ?_, h3⟩
  exact h2 (v.1, other v.1.exact) (by rw [hv']; exact List.mem_map.2 ⟨v, hv, rfl⟩)

/-- The parts of one file one after the other, when the part before them is of another file. -/
theorem after_parts {name : Str} (ps : List FilePart) : ∀ (d : Bytes), (∀ p ∈ ps, p.f.name = name) →
    ps.foldl afterPart (some (name, d)) = some (name, d ++ ps.flatMap (·.data)) := by
  induction ps with
  | nil => intro d _; simp
  | cons p ps ih =>
    intro d h
    have hp := h p (by simp)
    rw [List.foldl_cons, afterPart, hp]
    simp only [packedSoFar, hp, if_true]
    rw [ih _ (fun q hq => h q (List.mem_cons_of_mem _ hq)), List.flatMap_cons, List.append_assoc]

/-- The packed data of the whole file at its last part. -/
theorem so_far_whole {name : Str} {last : Option (Str × Bytes)} {ps : List FilePart} {p : FilePart}
    (hname : ∀ q ∈ ps ++ [p], q.f.name = name) (hlast : ∀ c, last = some c → c.1 ≠ name) :
    packedSoFar (ps.foldl afterPart last) p = (ps ++ [p]).flatMap (·.data) := by
  have hp := hname p (by simp)
  have hfirst : ∀ q : FilePart, q.f.name = name → packedSoFar last q = q.data := by
    intro q hq
    cases last with
    | none => rfl
    | some c =>
      have := hlast c rfl
      obtain ⟨n, d⟩ := c
      simp only [packedSoFar]
      rw [if_neg (by rw [hq]; exact this)]
  cases ps with
  | nil => simp [hfirst p hp]
  | cons q ps =>
    have hq := hname q (by simp)
    rw [List.foldl_cons, afterPart, hfirst q hq, hq, after_parts ps _ (fun r hr => hname r (by simp [hr]))]
    simp [packedSoFar, hp]

theorem last_name (ps : List FilePart) : ∀ (last : Option (Str × Bytes)) c, ps.foldl afterPart last = some c →
    (∃ p ∈ ps, c.1 = p.f.name ∧ ps.getLast? = some p) ∨ ps = [] ∧ last = some c := by
  induction ps with
  | nil => intro last c h; exact Or.inr ⟨rfl, h⟩
  | cons q ps ih =>
    intro last c h
    rw [List.foldl_cons] at h
    rcases ih _ _ h with ⟨p, hp, e1, e2⟩ | ⟨e1, e2⟩
    · refine Or.inl ⟨p, List.mem_cons_of_mem _ hp, e1, ?_⟩
      rw [List.getLast?_cons, e2]; rfl
    · subst e1
      refine Or.inl ⟨q, by simp, ?_, rfl⟩
      simp only [afterPart, Option.some.injEq] at e2
      rw [← e2]

/-- C108: a stored file whose packed data (that of all its parts) does not have the CRC of its last header is reported, and
only then. -/
theorem file_reported {before after ps : List FilePart} {p : FilePart} {name : Str}
    (hname : ∀ q ∈ ps ++ [p], q.f.name = name)
    (helse : ∀ q ∈ before ++ after, q.f.name ≠ name)
    (hlast : hasFlag p.flags 2 = false) (hmid : ∀ q ∈ ps, hasFlag q.flags 2 = true) (hm : p.f.method = 0x30) :
    .file name ∈ wrongParts none (before ++ ((ps ++ [p]) ++ after)) ↔ p.f.fileCrc ≠ (crc32 ((ps ++ [p]).flatMap (·.data)) 0).toNat := by
  have hother : ∀ (qs : List FilePart) (l : Option (Str × Bytes)), (∀ q ∈ qs, q.f.name = name → hasFlag q.flags 2 = true) → .file name ∉ wrongParts l qs := by
    intro qs
    induction qs with
    | nil => intro l _; simp [wrongParts]
    | cons q qs ih =>
      intro l h
      rw [wrongParts, List.mem_append, not_or]
      refine ⟨?_, ih _ (fun r hr => h r (List.mem_cons_of_mem _ hr))⟩
      unfold wrongPart
      by_cases hf : hasFlag q.flags 2 = true
      · rw [if_pos hf]; split <;> simp
      · rw [if_neg hf]
        split
        · have : q.f.name ≠ name := fun hc => hf (h q (by simp) hc)
          simpa using fun hc => this hc.symm
        · simp
  rw [wrong_append, wrong_append, wrong_append]
  have h1 := hother before none (fun q hq hc => absurd hc (helse q (List.mem_append_left _ hq)))
  have h2 := hother ps (before.foldl afterPart none) (fun q hq _ => hmid q hq)
  have h3 := hother after ((ps ++ [p]).foldl afterPart (before.foldl afterPart none))
    (fun q hq hc => absurd hc (helse q (List.mem_append_right _ hq)))
  simp only [List.mem_append, h1, h2, h3, false_or, or_false]
  have hw := so_far_whole (last := before.foldl afterPart none) (ps := ps) hname (by
    intro c hc
    rcases last_name before none c hc with ⟨q, hq, e1, e2⟩ | ⟨_, e⟩
    · rw [e1]; exact helse q (List.mem_append_left _ hq)
    · cases e)
  simp only [wrongParts, List.append_nil]
  rw [hw]
  unfold wrongPart
  rw [hlast, if_neg (by simp), hname p (by simp)]
  by_cases hc : p.f.fileCrc = (crc32 ((ps ++ [p]).flatMap (·.data)) 0).toNat
  · simp [hc]
  · simp [hc, hm]

/-- C108: a part in the middle of a file, compressed or not, that does not have the CRC of its header is reported. -/
theorem part_reported {parts : List FilePart} {p : FilePart} (hp : p ∈ parts) (hflag : hasFlag p.flags 2 = true)
    (hcrc : p.f.fileCrc ≠ (crc32 p.data 0).toNat) : ∀ last, .volume ∈ wrongParts last parts := by
  induction parts with
  | nil => simp at hp
  | cons q qs ih =>
    intro last
    rw [wrongParts, List.mem_append]
    rcases List.mem_cons.1 hp with rfl | hp
    · left
      unfold wrongPart
      rw [if_pos hflag, if_neg hcrc]
      simp
    · exact Or.inr (ih hp _)

/-- C108: nothing is reported when all checksums are right: each part in the middle has its CRC, and each file that is stored
has the CRC of its last header. -/
theorem nothing_reported {parts : List FilePart} : ∀ {last : Option (Str × Bytes)},
    (∀ before p after, parts = before ++ p :: after → if hasFlag p.flags 2 = true then p.f.fileCrc = (crc32 p.data 0).toNat
      else p.f.method = 0x30 → p.f.fileCrc = (crc32 (packedSoFar (before.foldl afterPart last) p) 0).toNat) →
    wrongParts last parts = [] := by
  induction parts with
  | nil => intro _ _; rfl
  | cons q qs ih =>
    intro last h
    rw [wrongParts]
    have h0 := h [] q qs rfl
    have : wrongPart q (packedSoFar last q) = [] := by
      unfold wrongPart
      by_cases hf : hasFlag q.flags 2 = true
      · rw [if_pos hf] at h0 ⊢; rw [if_pos h0]
      · rw [if_neg hf] at h0 ⊢; rw [if_neg (fun hc => hc.2 (h0 hc.1))]
    rw [this, List.nil_append]
    apply ih
    intro before p after he
    have := h (q :: before) p after (by rw [he]; rfl)
    rwa [List.foldl_cons] at this

/-- C108: a stored file that is a damaged copy of the archived one (`d`, whose CRC is in the header) is reported. -/
theorem damaged_reported {before after ps : List FilePart} {p : FilePart} {name : Str} {d : Bytes}
    (hname : ∀ q ∈ ps ++ [p], q.f.name = name)
    (helse : ∀ q ∈ before ++ after, q.f.name ≠ name)
    (hlast : hasFlag p.flags 2 = false) (hmid : ∀ q ∈ ps, hasFlag q.flags 2 = true) (hm : p.f.method = 0x30)
    (hcrc : p.f.fileCrc = (crc32 d 0).toNat) (hd : Damaged d ((ps ++ [p]).flatMap (·.data))) :
    .file name ∈ wrongParts none (before ++ ((ps ++ [p]) ++ after)) := by
  rw [file_reported hname helse hlast hmid hm, hcrc]
  intro hc
  exact damage_changes_crc hd (BitVec.eq_of_toNat_eq hc.symm)

/-! ### Examples -/

/-- The volumes the files on disk make: the second one has other data. -/
def exOther (p : Path) : Bytes := if p = str "/in/a.rar" then exVol1 else exVol2b

/-- The disk with another file `x` of the same size. -/
def exDisk2 (srr : Bytes) (p : Path) : Option Bytes :=
  if p = str "/r/a.srr" then some srr else if p = str "/r/x" then some [1, 2, 0, 9, 5] else none
set_option maxRecDepth 100000

theorem exVol2b_good : GoodVolume exVol2b := good_of_check (by decide +kernel)

theorem exOtherParts : ∃ f g, f.name = str "x" ∧ g.name = str "x" ∧ f.unpackedSize = 5 ∧ f.method = 0x30 ∧
    (exVols.flatMap fun v => volumeParts (exOther v.1.exact)) = [⟨0x8002, f, [1, 2]⟩, ⟨0x8001, g, [0, 9, 5]⟩] ∧
    wrongParts none [⟨0x8002, f, [1, 2]⟩, ⟨0x8001, g, [0, 9, 5]⟩] = [.file (str "x")] := by
  refine ⟨⟨2, 5, 0, 0xB6CC4292, 0, 20, 0x30, 0, str "x", [0x78], none, none⟩,
    ⟨3, 5, 0, 0x470B99F4, 0, 20, 0x30, 0, str "x", [0x78], none, none⟩, rfl, rfl, rfl, rfl, ?_, ?_⟩ <;> decide +kernel

/-- The hypotheses of `other_files_reported_partial` hold for another file `x`: it is packed, and reported. -/
theorem exReported : ∃ srr fs2, exCreated = .ok srr ∧ reconstruct exArgs (exDisk2 srr) = .ok (fs2, [.file (str "x")], true) ∧
    fs2 (str "/o/cd1/a.r00") = some exVol2b := by
  have hok : exCreated.isOk = true := by decide +kernel
  cases hc : exCreated with
  | error e => rw [hc] at hok; simp [Except.isOk, Except.toBool] at hok
  | ok srr =>
    obtain ⟨f, g, n1, n2, n3, n4, hp, hw⟩ := exOtherParts
    obtain ⟨fs2, h1, h2, _⟩ := other_files_reported_partial (a := exArgs) (fs1 := exDisk2 srr) (ext := [str "/o/a.nfo"]) (other := exOther)
      (out := fun v => str "/o/" ++ v.name) hc
      (by
        intro v hv
        simp only [exVols, List.mem_cons, List.not_mem_nil, or_false] at hv
        rcases hv with rfl | rfl
        · exact ⟨by decide +kernel, by decide +kernel⟩
        · exact ⟨by decide +kernel, by decide +kernel⟩)
      (by simp [exVols])
      (by decide +kernel)
      (by
        intro v hv
        simp only [exVols, List.mem_cons, List.not_mem_nil, or_false] at hv
        rcases hv with rfl | rfl
        · exact ⟨same_of_check (by decide +kernel), exVol1_good⟩
        · exact ⟨same_of_check (by decide +kernel), exVol2b_good⟩)
      (by simp [exDisk2, exArgs]) rfl
      (by
        intro _ x hx
        simp only [List.mem_singleton] at hx
        subst hx
        exact ⟨str "/o/a.nfo", by simp, by decide +kernel, by decide +kernel⟩)
      (by
        intro v hv
        simp only [exVols, List.mem_cons, List.not_mem_nil, or_false] at hv
        rcases hv with rfl | rfl
        · exact ⟨by decide +kernel, Or.inl ⟨by
          unfold exDisk2
          rw [if_neg (by decide +kernel), if_neg (by decide +kernel)], by decide +kernel⟩⟩
        · exact ⟨by decide +kernel, Or.inl ⟨by
          unfold exDisk2
          rw [if_neg (by decide +kernel), if_neg (by decide +kernel)], by decide +kernel⟩⟩)
      (by decide +kernel)
      (by
        rw [hp]
        refine Packs.starts (rest := [0, 9, 5]) (by simp) ?_ ?_
        · unfold SourceIs
          rw [if_neg (by dsimp only; decide)]
          refine ⟨str "x", [1, 2, 0, 9, 5], Or.inr ⟨rfl, by dsimp only; rw [n1]; decide +kernel⟩, by decide +kernel, ?_, Or.inl n3.symm, ?_⟩
          · unfold exDisk2
            rw [if_neg (by decide +kernel), if_pos (by decide +kernel)]
          · rw [if_pos n4]; rfl
        · dsimp only
          rw [n1, ← n2]
          exact Packs.continues (p := ⟨0x8001, g, [0, 9, 5]⟩) (rest := []) Packs.nil)
    rw [hp, hw] at h1
    exact ⟨srr, fs2, rfl, h1, h2 (⟨str "/in/a.r00", str "/in/a.r00", str "cd1/a.r00"⟩, exVol2) (by simp [exVols])⟩

/-- C108, violation: when only the second volume is asked for, a checksum is reported although the file is the right one and the
volume comes out right: the CRC of the file is computed from the part in that volume only. -/
theorem one_volume_false_report : ∃ srr fs2, exCreated = .ok srr ∧
    reconstruct { exArgs with part := str "a.r00" } (exDisk1 srr) = .ok (fs2, [.file (str "x")], true) ∧
    fs2 (str "/o/cd1/a.r00") = some exVol2 := by
  have hok : (match exCreated with
      | .ok srr => (match reconstruct { exArgs with part := str "a.r00" } (exDisk1 srr) with
        | .ok (fs2, r, b) => decide (r = [.file (str "x")] ∧ b = true ∧ fs2 (str "/o/cd1/a.r00") = some exVol2)
        | .error _ => false)
      | .error _ => false) = true := by decide +kernel
  split at hok
  · rename_i srr hc
    split at hok
    · rename_i fs2 r b hr
      rw [decide_eq_true_eq] at hok
      obtain ⟨h1, h2, h3⟩ := hok
      exact ⟨srr, fs2, hc, by rw [hr, h1, h2], h3⟩
    · simp at hok
  · simp at hok

/-- The hypotheses of `damaged_reported` hold: a file of two parts with a changed bit. -/
example : ∃ p q : FilePart, p.f.name = str "x" ∧ q.f.name = str "x" ∧ hasFlag p.flags 2 = true ∧ hasFlag q.flags 2 = false ∧ q.f.method = 0x30 ∧
    q.f.fileCrc = (crc32 [1, 2, 3, 4, 5] 0).toNat ∧ Damaged [1, 2, 3, 4, 5] (([p] ++ [q]).flatMap (·.data)) :=
  ⟨⟨0x8002, ⟨2, 5, 0, 0xB6CC4292, 0, 20, 0x30, 0, str "x", [0x78], none, none⟩, [1, 2]⟩,
    ⟨0x8001, ⟨3, 5, 0, 0x470B99F4, 0, 20, 0x30, 0, str "x", [0x78], none, none⟩, [3, 4, 4]⟩, rfl, rfl, by decide, by decide, rfl,
    by decide +kernel, Damaged.oneBit (d := [1, 2, 3, 4, 5]) 32 (by decide)⟩

end Rescene.Props
