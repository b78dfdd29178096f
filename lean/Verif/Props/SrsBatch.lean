import Verif.Spec.SrsBatch
import Verif.Props.SrsExit
import Verif.Props.SrsFiles
import Verif.Lemmas.AutoStore
/-
C99: where the command srs puts the SRS of a sample.
C100: srs_batch.py.
-/
namespace Rescene.Props
open Rescene Rescene.Spec

/-! ### The name of an SRS -/

theorem rsplitAt_some {c : Nat} {a b : Str} (hb : c ∉ b) : rsplitAt c (a ++ c :: b) = some (a, b) := by
  have h : ∀ x ∈ b.reverse, (x != c) = true := by
    intro x hx
    simp only [bne_iff_ne, ne_eq]
    rintro rfl
    exact hb (List.mem_reverse.mp hx)
  have hr : (a ++ c :: b).reverse = b.reverse ++ c :: a.reverse := by simp
  unfold rsplitAt
  rw [hr, List.dropWhile_append_of_pos h, List.takeWhile_append_of_pos h]
  simp

theorem sampleAt_dir {sample a p q n e : Str} (h : SampleAt sample a p q n e) : dirname sample = a ++ 0x2F :: p ++ 0x2F :: q := by
  obtain ⟨rfl, h1, h2, h3, h4, h5, h6, h7⟩ := h
  have : a ++ str "/" ++ p ++ str "/" ++ q ++ str "/" ++ n ++ str "." ++ e = (a ++ 0x2F :: p ++ 0x2F :: q) ++ 0x2F :: (n ++ str "." ++ e) := by
    simp [str]
  rw [this]
  refine dirname_slash ?_ (by simp) ?_
  · simp only [List.mem_append, not_or]
    exact ⟨⟨h3, by decide⟩, h4⟩
  · obtain ⟨q', x, rfl⟩ : ∃ q' x, q = q' ++ [x] := ⟨q.dropLast, q.getLast h7, (List.dropLast_concat_getLast h7).symm⟩
    have hx : x ≠ 0x2F := by rintro rfl; exact h2 (by simp)
    have e : a ++ 0x2F :: p ++ 0x2F :: (q' ++ [x]) = (a ++ 0x2F :: p ++ 0x2F :: q') ++ [x] := by simp
    rw [e, List.getLast?_append]
    simpa using hx

theorem sampleAt_base {sample a p q n e : Str} (h : SampleAt sample a p q n e) : stem (basename sample) = n := by
  obtain ⟨rfl, h1, h2, h3, h4, h5, h6, h7⟩ := h
  have : a ++ str "/" ++ p ++ str "/" ++ q ++ str "/" ++ n ++ str "." ++ e = (a ++ 0x2F :: p ++ 0x2F :: q) ++ 0x2F :: (n ++ 0x2E :: e) := by
    simp [str]
  rw [this, basename_slash _ (by
    simp only [List.mem_append, List.mem_cons, not_or]
    exact ⟨h3, by decide, h4⟩)]
  exact stem_dot h5

theorem target_in {lower : Str → Str} {cwd : Str} {exist : Path → Bool} {o : SrsNameOpts} {sample name : Path}
    (hd : ((o.d && o.dd) || (o.d && o.ddd) || (o.dd && o.ddd)) = false) (hn : ¬ (o.output ≠ [] ∧ namesSrs lower o = true))
    (hf : GoodFolder exist (srsFolder lower cwd o sample)) (hs : srsStem o sample = .ok name) (hname : 0x2F ∉ name) :
    srsTarget lower cwd exist o sample = .ok (srsFolder lower cwd o sample ++ str "/" ++ name ++ str ".srs") := by
  obtain ⟨f1, f2, f3⟩ := hf
  have hthere : folderThere exist (srsFolder lower cwd o sample) = true := by
    unfold folderThere
    rw [f3]; simpa using f1
  have hsrs : 0x2F ∉ name ++ str ".srs" := by
    simp only [List.mem_append, not_or]
    exact ⟨hname, by decide⟩
  have hhead : (name ++ str ".srs").head? ≠ some 0x2F := by
    intro h
    exact hsrs (List.mem_of_mem_head? h)
  have hj : posixJoin2 (srsFolder lower cwd o sample) (name ++ str ".srs") = srsFolder lower cwd o sample ++ 0x2F :: (name ++ str ".srs") := by
    rw [join_plain hhead, if_neg (by simp [f1, f2])]
  have hdir := dirname_slash (b := name ++ str ".srs") hsrs f1 f2
  unfold srsTarget srsPath
  rw [hd, if_neg (by simp), if_neg (by rw [hthere]; simp), if_neg hn, hs]
  dsimp only
  rw [hj, hdir, if_neg (by rw [hthere]; simp)]
  simp [str]

/-- C99.  Without options the SRS is in the working folder and has the name of the sample. -/
theorem srs_plain {lower : Str → Str} {cwd sample a p q n e : Str} {exist : Path → Bool} (h : SampleAt sample a p q n e) (hf : GoodFolder exist cwd) :
    srsTarget lower cwd exist {} sample = .ok (cwd ++ str "/" ++ n ++ str ".srs") := by
  have := target_in (lower := lower) (o := {}) (sample := sample) (cwd := cwd) (exist := exist) (name := n) rfl (by simp)
    (by simpa [srsFolder] using hf) (by simp [srsStem, sampleAt_base h]) h.2.2.2.1
  simpa [srsFolder] using this

/-- C99.  With `-o` and a folder it is in that folder, also with `--ddd`. -/
theorem srs_output {lower : Str → Str} {cwd out sample a p q n e : Str} {exist : Path → Bool} {ddd : Bool} (h : SampleAt sample a p q n e)
    (hf : GoodFolder exist out) (hs : lower (out.drop (out.length - 4)) ≠ str ".srs") :
    srsTarget lower cwd exist { output := out, ddd := ddd } sample = .ok (out ++ str "/" ++ n ++ str ".srs") := by
  have hn : namesSrs lower { output := out, ddd := ddd } = false := by simpa [namesSrs] using hs
  have hfo : srsFolder lower cwd { output := out, ddd := ddd } sample = out := by
    unfold srsFolder
    rw [if_pos hf.1, hn]; rfl
  have := target_in (lower := lower) (o := { output := out, ddd := ddd }) (sample := sample) (cwd := cwd) (exist := exist) (name := n) (by simp) (by simp [hn])
    (by rw [hfo]; exact hf) (by simp [srsStem, sampleAt_base h]) h.2.2.2.1
  rw [hfo] at this
  exact this

/-- C99.  With `-o` and the name of an SRS file in a folder that exists, that is the name; the working folder has to exist as well. -/
theorem srs_named {lower : Str → Str} {cwd folder name sample : Str} {exist : Path → Bool} (hc : GoodFolder exist cwd) (hf : GoodFolder exist folder)
    (hname : 0x2F ∉ name) (hs : lower ((folder ++ str "/" ++ name).drop ((folder ++ str "/" ++ name).length - 4)) = str ".srs") :
    srsTarget lower cwd exist { output := folder ++ str "/" ++ name } sample = .ok (folder ++ str "/" ++ name) := by
  have hn : namesSrs lower { output := folder ++ str "/" ++ name } = true := by simpa [namesSrs] using hs
  have hne : folder ++ str "/" ++ name ≠ [] := by simp [str]
  have hthere : ∀ p, GoodFolder exist p → folderThere exist p = true := by
    rintro p ⟨f1, _, f3⟩
    unfold folderThere
    rw [f3]; simpa using f1
  have hfo : srsFolder lower cwd { output := folder ++ str "/" ++ name } sample = cwd := by
    unfold srsFolder
    rw [if_pos hne, if_pos hn]
  have hpa : srsPath lower cwd { output := folder ++ str "/" ++ name } sample = .ok (folder ++ str "/" ++ name) := by
    unfold srsPath
    rw [if_pos ⟨hne, hn⟩]
  unfold srsTarget
  rw [hfo, hpa, if_neg (by simp), if_neg (by rw [hthere _ hc]; simp)]
  dsimp only
  have : folder ++ str "/" ++ name = folder ++ 0x2F :: name := by simp [str]
  rw [this, dirname_slash hname hf.1 hf.2.1, if_neg (by rw [hthere _ hf]; simp)]

/-- C99.  With `--d` it has the name of the folder of the sample, in the working folder or in that of `-o`. -/
theorem srs_d {lower : Str → Str} {cwd out sample a p q n e : Str} {exist : Path → Bool} (h : SampleAt sample a p q n e)
    (hs : lower (out.drop (out.length - 4)) ≠ str ".srs") (hf : GoodFolder exist (if out = [] then cwd else out)) :
    srsTarget lower cwd exist { output := out, d := true } sample = .ok ((if out = [] then cwd else out) ++ str "/" ++ q ++ str ".srs") := by
  have hn : namesSrs lower { output := out, d := true } = false := by simpa [namesSrs] using hs
  have hfo : srsFolder lower cwd { output := out, d := true } sample = if out = [] then cwd else out := by
    unfold srsFolder
    rw [hn]
    by_cases h : out = [] <;> simp [h]
  have := target_in (lower := lower) (o := { output := out, d := true }) (sample := sample) (cwd := cwd) (exist := exist) (name := q) (by simp) (by simp [hn])
    (by rw [hfo]; exact hf) (by
      unfold srsStem
      rw [if_pos rfl, sampleAt_dir h, rsplitAt_some h.2.2.1]) h.2.2.1
  rw [hfo] at this
  exact this

/-- C99.  With `--dd` it has the name of the folder around the folder of the sample. -/
theorem srs_dd {lower : Str → Str} {cwd out sample a p q n e : Str} {exist : Path → Bool} (h : SampleAt sample a p q n e)
    (hs : lower (out.drop (out.length - 4)) ≠ str ".srs") (hf : GoodFolder exist (if out = [] then cwd else out)) :
    srsTarget lower cwd exist { output := out, dd := true } sample = .ok ((if out = [] then cwd else out) ++ str "/" ++ p ++ str ".srs") := by
  have hn : namesSrs lower { output := out, dd := true } = false := by simpa [namesSrs] using hs
  have hfo : srsFolder lower cwd { output := out, dd := true } sample = if out = [] then cwd else out := by
    unfold srsFolder
    rw [hn]
    by_cases h : out = [] <;> simp [h]
  have := target_in (lower := lower) (o := { output := out, dd := true }) (sample := sample) (cwd := cwd) (exist := exist) (name := p) (by simp) (by simp [hn])
    (by rw [hfo]; exact hf) (by
      unfold srsStem
      rw [if_neg (by simp), if_pos rfl, sampleAt_dir h, rsplitAt_some h.2.2.1]
      dsimp only
      rw [rsplitAt_some h.2.1]) h.2.1
  rw [hfo] at this
  exact this

/-- C99, violation.  The help of `--ddd` is "Same as above" (the name of the folder `p`), "but puts the .srs file in the parent directory": it is there, but
has the name of the sample. -/
theorem ddd_sample_name {lower : Str → Str} {cwd sample a p q n e : Str} {exist : Path → Bool} (h : SampleAt sample a p q n e)
    (hf : GoodFolder exist (a ++ str "/" ++ p)) :
    srsTarget lower cwd exist { ddd := true } sample = .ok (a ++ str "/" ++ p ++ str "/" ++ n ++ str ".srs") := by
  have hfo : srsFolder lower cwd { ddd := true } sample = a ++ str "/" ++ p := by
    unfold srsFolder
    rw [if_neg (by simp), if_pos rfl, sampleAt_dir h, rsplitAt_some h.2.2.1]
    simp [str]
  have := target_in (lower := lower) (o := { ddd := true }) (sample := sample) (cwd := cwd) (exist := exist) (name := n) (by simp) (by simp)
    (by rw [hfo]; exact hf) (by simp [srsStem, sampleAt_base h]) h.2.2.2.1
  rw [hfo] at this
  exact this

/-- C99, violation.  `-o x.srs`, the name of a file in the working folder, is always refused. -/
theorem bare_refused {lower : Str → Str} {cwd name sample : Str} {exist : Path → Bool} {d dd ddd : Bool} (hne : name ≠ []) (hname : 0x2F ∉ name)
    (hs : lower (name.drop (name.length - 4)) = str ".srs") :
    ∃ msg, srsTarget lower cwd exist { output := name, d := d, dd := dd, ddd := ddd } sample = .error (.exits 1 msg) := by
  have hn : namesSrs lower { output := name, d := d, dd := dd, ddd := ddd } = true := by simpa [namesSrs] using hs
  unfold srsTarget
  split
  · exact ⟨_, rfl⟩
  · split
    · exact ⟨_, rfl⟩
    · have : srsPath lower cwd { output := name, d := d, dd := dd, ddd := ddd } sample = .ok name := by
        unfold srsPath
        rw [if_pos ⟨hne, hn⟩]
      rw [this]
      dsimp only
      have hd : dirname name = [] := by
        unfold dirname
        rw [basename_plain hname]
        simp
      rw [hd, if_pos (by simp [folderThere])]
      exact ⟨_, rfl⟩

/-- C99.  Wherever it is, it is in a folder that exists, and its name ends in `.srs`, in capitals or not. -/
theorem srs_there {lower : Str → Str} {cwd : Str} {exist : Path → Bool} {o : SrsNameOpts} {sample t : Path} (hl : lower (str ".srs") = str ".srs")
    (h : srsTarget lower cwd exist o sample = .ok t) : exist (dirname t) = true ∧ lower (t.drop (t.length - 4)) = str ".srs" := by
  unfold srsTarget at h
  split at h
  · cases h
  · split at h
    · cases h
    · cases hp : srsPath lower cwd o sample with
      | error e => rw [hp] at h; cases h
      | ok x =>
        rw [hp] at h
        dsimp only at h
        split at h
        · cases h
        · rename_i hth
          cases h
          refine ⟨?_, ?_⟩
          · simp only [folderThere, Bool.not_eq_false, Bool.and_eq_true] at hth
            exact hth.2
          · unfold srsPath at hp
            split at hp
            · rename_i hc
              cases hp
              simpa [namesSrs] using hc.2
            · cases hs : srsStem o sample with
              | error e => rw [hs] at hp; cases hp
              | ok m =>
                rw [hs] at hp
                cases hp
                have : str ".srs" <:+ posixJoin2 (srsFolder lower cwd o sample) (m ++ str ".srs") := by
                  unfold posixJoin2
                  split
                  · exact ⟨m, rfl⟩
                  · split
                    · exact ⟨srsFolder lower cwd o sample ++ m, by simp⟩
                    · exact ⟨srsFolder lower cwd o sample ++ 0x2F :: m, by simp⟩
                obtain ⟨b, hb⟩ := this
                rw [← hb, List.length_append, show (str ".srs").length = 4 from rfl, Nat.add_sub_cancel, List.drop_left]
                exact hl

/-- C99.  Only one of `--d`, `--dd` and `--ddd` can be given. -/
theorem srs_mind {lower : Str → Str} {cwd : Str} {exist : Path → Bool} {o : SrsNameOpts} {sample : Path} (h : 2 ≤ ([o.d, o.dd, o.ddd].filter id).length) :
    srsTarget lower cwd exist o sample = .error (.exits 1 mindMsg) := by
  unfold srsTarget
  rw [if_pos]
  cases h1 : o.d <;> cases h2 : o.dd <;> cases h3 : o.ddd <;> simp_all

example : SampleAt (str "/r/Rel/Sample/s.avi") (str "/r") (str "Rel") (str "Sample") (str "s") (str "avi") := ⟨rfl, by decide⟩

example : srsTarget lowerStr (str "/w") (fun _ => true) { ddd := true } (str "/r/Rel/Sample/s.avi") = .ok (str "/r/Rel/s.srs") ∧
    srsTarget lowerStr (str "/w") (fun _ => true) { dd := true } (str "/r/Rel/Sample/s.avi") = .ok (str "/w/Rel.srs") ∧
    srsTarget lowerStr (str "/w") (fun _ => true) { d := true, output := str "o" } (str "/r/Rel/Sample/s.avi") = .ok (str "o/Sample.srs") ∧
    srsTarget lowerStr (str "/w") (fun _ => true) { output := str "o/x.SRS" } (str "/r/Rel/Sample/s.avi") = .ok (str "o/x.SRS") ∧
    srsTarget lowerStr (str "/w") (fun _ => true) { output := str "x.srs" } (str "/r/Rel/Sample/s.avi") = .error (.exits 1 (folderMsg [])) :=
  ⟨rfl, rfl, rfl, rfl, rfl⟩

/-! ### srs_batch.py -/

theorem video_iff (lower : Str → Str) (f : BatchFile) : isBatchVideo lower f = true ↔ Video lower f := by
  unfold isBatchVideo Video endsWith
  simp only [List.any_eq_true, List.isSuffixOf_iff_suffix]
  constructor
  · rintro ⟨e, he, b, hb⟩
    exact ⟨b, e, he, hb.symm⟩
  · rintro ⟨b, e, he, hb⟩
    exact ⟨e, he, b, hb.symm⟩

/-- The SRS is where the run has it: `-o` is the folder of the output. -/
theorem batch_place {lower : Str → Str} {cwd out : Str} {exist : Path → Bool} {sample a p q n e : Str} (h : SampleAt sample a p q n e) (hf : GoodFolder exist out)
    (hs : lower (out.drop (out.length - 4)) ≠ str ".srs") :
    srsTarget lower cwd exist { output := out } sample = .ok (out ++ str "/" ++ (stem (n ++ str "." ++ e) ++ str ".srs")) := by
  have := srs_output (lower := lower) (cwd := cwd) (exist := exist) (ddd := false) h hf hs
  rw [this, show n ++ str "." ++ e = n ++ 0x2E :: e by simp [str], stem_dot h.2.2.2.2.2.1]
  simp

theorem txt_ne_srs (f g : BatchFile) : f.txt ≠ g.srs := by
  intro h
  have h2 := congrArg (fun k => k.2.getLast?) h
  simp [BatchFile.txt, BatchFile.srs, str, List.getLast?_append] at h2

theorem put_same (t : OutTree) (k : Str × Str) (c : Option Bytes) : t.put k c k = c := if_pos rfl
theorem put_other (t : OutTree) {k k' : Str × Str} (c : Option Bytes) (h : k' ≠ k) : t.put k c k' = t k' := if_neg h

theorem batchOne_frame {dig : Nat → Bool} {lower : Str → Str} {w : BatchWorld} {keep : Bool} {f : BatchFile} {t : OutTree} {k : Str × Str}
    (h1 : k ≠ f.srs) (h2 : k ≠ f.txt) : (batchOne dig lower w keep f t).1 k = t k := by
  unfold batchOne
  split
  · split
    · exact (put_other _ _ h2).trans (put_other _ _ h1)
    · exact put_other _ _ h2
  · exact put_other _ _ h2
  · exact put_other _ _ h2
  · exact put_other _ _ h2

theorem batchOne_answers {dig : Nat → Bool} {lower : Str → Str} {w : BatchWorld} {f : BatchFile} {t : OutTree} (h : BatchAnswers dig lower w f) :
    (batchOne dig lower w false f t).2 = .ok () ∧ Left dig lower w t (batchOne dig lower w false f t).1 f := by
  by_cases hm : Makes dig lower (w.call f)
  · have hr := (call_returns dig lower (w.call f)).mpr hm
    obtain ⟨s, hs⟩ := hm.2.2
    have hs' : srsMake dig lower w.app (w.call f).path f.data (w.fp f) false none = .ok s := hs
    have : batchOne dig lower w false f t = ((t.put f.srs (some s)).put f.txt none, .ok ()) := by
      unfold batchOne BatchWorld.fin
      rw [if_neg (by simp), hr]
      dsimp only
      rw [hs']
    rw [this]
    refine ⟨rfl, Or.inl ⟨s, hs', hm, ?_, ?_⟩⟩
    · show (t.put f.srs (some s)).put f.txt none f.srs = _
      rw [put_other _ _ (txt_ne_srs f f).symm, put_same]
    · exact put_same _ _ _
  · obtain ⟨msg, hr⟩ := h.resolve_left hm
    have : batchOne dig lower w false f t = (t.put f.txt (some (w.trace f ++ w.enc (msg ++ str "\n"))), .ok ()) := by
      unfold batchOne BatchWorld.fin
      rw [if_neg (by simp), hr]
    rw [this]
    refine ⟨rfl, Or.inr ⟨hm, msg, w.trace f, hr, ?_, put_same _ _ _⟩⟩
    exact put_other _ _ (txt_ne_srs f f).symm

theorem batchAll_frame {dig : Nat → Bool} {lower : Str → Str} {w : BatchWorld} {keep : Bool} {k : Str × Str} : ∀ {l : List BatchFile} {t : OutTree},
    (∀ f ∈ l, isBatchVideo lower f = true → k ≠ f.srs ∧ k ≠ f.txt) → (batchAll dig lower w keep l t).1 k = t k
  | [], _, _ => rfl
  | f :: l, t, h => by
    unfold batchAll
    split
    · rename_i hv
      have hf := h f (by simp) hv
      have := batchOne_frame (dig := dig) (lower := lower) (w := w) (keep := keep) (f := f) (t := t) hf.1 hf.2
      split
      · rename_i t' c heq
        rw [heq] at this
        exact this
      · rename_i t' heq
        rw [heq] at this
        rw [batchAll_frame fun g hg => h g (by simp [hg])]
        exact this
    · exact batchAll_frame fun g hg => h g (by simp [hg])

theorem left_frame {dig : Nat → Bool} {lower : Str → Str} {w : BatchWorld} {a b a' b' : OutTree} {f : BatchFile} (h : Left dig lower w a b f)
    (h1 : a f.srs = a' f.srs) (h2 : b f.srs = b' f.srs) (h3 : b f.txt = b' f.txt) : Left dig lower w a' b' f := by
  rcases h with ⟨s, k1, k2, k3, k4⟩ | ⟨hm, msg, pre, k1, k2, k3⟩
  · exact Or.inl ⟨s, k1, k2, h2.symm.trans k3, h3.symm.trans k4⟩
  · exact Or.inr ⟨hm, msg, pre, k1, h2.symm.trans (k2.trans h1), h3.symm.trans k3⟩

/-- C100.  When srs tells in the agreed way of which videos it makes no SRS, and no two videos of a folder differ only in the extension: all videos are
handled, each has its SRS or a text with the reason, and nothing else is changed.  Partial: see `batch_stops`, `batch_collide` and `batch_n`. -/
theorem batch_partial {dig : Nat → Bool} {lower : Str → Str} {w : BatchWorld} : ∀ {l : List BatchFile} {t : OutTree},
    (∀ f ∈ l, Video lower f → BatchAnswers dig lower w f) →
    (l.Pairwise fun f g => Video lower f → Video lower g → (f.sub, f.name) ≠ (g.sub, g.name) ∧ (f.sub, stem f.name) ≠ (g.sub, stem g.name)) →
    (batchAll dig lower w false l t).2 = .ok () ∧
    (∀ f ∈ l, Video lower f → Left dig lower w t (batchAll dig lower w false l t).1 f) ∧
    ∀ k : Str × Str, (∀ f ∈ l, Video lower f → k ≠ (f.sub, stem f.name ++ str ".srs") ∧ k ≠ (f.sub, f.name ++ str ".txt")) →
      (batchAll dig lower w false l t).1 k = t k
  | [], _, _, _ => ⟨rfl, by simp, fun _ _ => rfl⟩
  | f :: l, t, ha, hp => by
    rw [List.pairwise_cons] at hp
    refine ⟨?_, ?_, fun k hk => batchAll_frame fun g hg hv => hk g hg ((video_iff lower g).mp hv)⟩
    · unfold batchAll
      split
      · rename_i hv
        obtain ⟨h1, _⟩ := batchOne_answers (t := t) (ha f (by simp) ((video_iff lower f).mp hv))
        split
        · rename_i heq
          rw [heq] at h1; cases h1
        · exact (batch_partial (fun g hg => ha g (by simp [hg])) hp.2).1
      · exact (batch_partial (fun g hg => ha g (by simp [hg])) hp.2).1
    · have key : ∀ g ∈ l, Video lower f → Video lower g → f.srs ≠ g.srs ∧ f.txt ≠ g.txt := by
        intro g hg hvf hvg
        have := hp.1 g hg hvf hvg
        constructor
        · intro he
          simp only [BatchFile.srs, Prod.mk.injEq, List.append_cancel_right_eq] at he
          exact this.2 (by rw [he.1, he.2])
        · intro he
          simp only [BatchFile.txt, Prod.mk.injEq, List.append_cancel_right_eq] at he
          exact this.1 (by rw [he.1, he.2])
      intro g hg hvg
      unfold batchAll
      by_cases hv : isBatchVideo lower f = true
      · have hvf := (video_iff lower f).mp hv
        rw [if_pos hv]
        obtain ⟨h1, h2⟩ := batchOne_answers (t := t) (ha f (by simp) hvf)
        cases heq : batchOne dig lower w false f t with
        | mk t1 r =>
          rw [heq] at h1 h2
          dsimp only at h1
          subst h1
          dsimp only
          rcases List.mem_cons.mp hg with rfl | hg
          · refine left_frame h2 rfl ?_ ?_
            · exact (batchAll_frame fun x hx hvx => ⟨(key x hx hvf ((video_iff lower x).mp hvx)).1, (txt_ne_srs x g).symm⟩).symm
            · exact (batchAll_frame fun x hx hvx => ⟨txt_ne_srs g x, (key x hx hvf ((video_iff lower x).mp hvx)).2⟩).symm
          · have hl := (batch_partial (t := t1) (fun x hx => ha x (by simp [hx])) hp.2).2.1 g hg hvg
            refine left_frame hl ?_ rfl rfl
            have := batchOne_frame (dig := dig) (lower := lower) (w := w) (keep := false) (f := f) (t := t) (k := g.srs) (key g hg hvf hvg).1.symm (txt_ne_srs f g).symm
            rw [heq] at this
            exact this
      · rw [if_neg hv]
        rcases List.mem_cons.mp hg with rfl | hg
        · exact absurd ((video_iff lower g).mpr hvg) hv
        · exact (batch_partial (fun x hx => ha x (by simp [hx])) hp.2).2.1 g hg hvg

theorem batchAll_append {dig : Nat → Bool} {lower : Str → Str} {w : BatchWorld} {keep : Bool} : ∀ {a b : List BatchFile} {t : OutTree},
    batchAll dig lower w keep (a ++ b) t = (match batchAll dig lower w keep a t with
      | (t', .error c) => (t', .error c)
      | (t', .ok ()) => batchAll dig lower w keep b t')
  | [], _, _ => rfl
  | f :: a, b, t => by
    rw [List.cons_append, batchAll, batchAll]
    split
    · cases batchOne dig lower w keep f t with
      | mk t1 r =>
        cases r with
        | error c => rfl
        | ok u => exact batchAll_append
    · exact batchAll_append

/-- C100, violation.  A video that is not recognised (an empty file, for example) ends the run with a TypeError: the files behind it are not
handled. -/
theorem batch_stops {dig : Nat → Bool} {lower : Str → Str} {w : BatchWorld} {pre post : List BatchFile} {f : BatchFile} {t : OutTree}
    (hpre : ∀ g ∈ pre, Video lower g → BatchAnswers dig lower w g)
    (hdis : pre.Pairwise fun f g => Video lower f → Video lower g → (f.sub, f.name) ≠ (g.sub, g.name) ∧ (f.sub, stem f.name) ≠ (g.sub, stem g.name))
    (hv : Video lower f) (hd : f.data.length < 14) :
    (batchAll dig lower w false (pre ++ f :: post) t).2 = .error .type ∧
    (batchAll dig lower w false (pre ++ f :: post) t).1 = (batchAll dig lower w false (pre ++ [f]) t).1 := by
  have hp := (batch_partial (t := t) hpre hdis).1
  obtain ⟨m, hm⟩ := unknown_stops (dig := dig) (lower := lower) (c := w.call f) (short_unknown hd)
  have hone : ∀ t, batchOne dig lower w false f t = (t.put f.txt (some (w.trace f)), .error .type) := by
    intro t
    unfold batchOne BatchWorld.fin
    rw [if_neg (by simp), hm]
  have hcons : ∀ post t, batchAll dig lower w false (f :: post) t = (t.put f.txt (some (w.trace f)), .error .type) := by
    intro post t
    unfold batchAll
    rw [if_pos ((video_iff lower f).mpr hv), hone]
  rw [batchAll_append, batchAll_append]
  cases h : batchAll dig lower w false pre t with
  | mk t1 r =>
    rw [h] at hp
    dsimp only at hp
    subst hp
    dsimp only
    rw [hcons, hcons]
    exact ⟨rfl, rfl⟩

/-- C100, violation.  Of two videos in a folder that differ only in the extension there is one SRS, that of the last one. -/
theorem batch_collide {dig : Nat → Bool} {lower : Str → Str} {w : BatchWorld} {f g : BatchFile} {t : OutTree} {s : Bytes} (hf : Video lower f) (hg : Video lower g)
    (hs : f.sub = g.sub) (hn : stem f.name = stem g.name) (mf : Makes dig lower (w.call f)) (mg : Makes dig lower (w.call g))
    (hgs : srsMake dig lower w.app (w.call g).path g.data (w.fp g) false none = .ok s) :
    (batchAll dig lower w false [f, g] t).2 = .ok () ∧ (batchAll dig lower w false [f, g] t).1 (f.sub, stem f.name ++ str ".srs") = some s ∧
    ∀ k, k ≠ (f.sub, stem f.name ++ str ".srs") → ¬ str ".txt" <:+ k.2 → (batchAll dig lower w false [f, g] t).1 k = t k := by
  have hframe : ∀ k, k ≠ (f.sub, stem f.name ++ str ".srs") → ¬ str ".txt" <:+ k.2 → (batchAll dig lower w false [f, g] t).1 k = t k := by
    intro k hk ht
    refine batchAll_frame ?_
    intro x hx _
    simp only [List.mem_cons, List.not_mem_nil, or_false] at hx
    rcases hx with rfl | rfl
    · exact ⟨hk, fun h => ht (by rw [h]; exact List.suffix_append _ _)⟩
    · refine ⟨fun h => hk (by rw [h, hs, hn]; rfl), fun h => ht (by rw [h]; exact List.suffix_append _ _)⟩
  obtain ⟨f1, f2⟩ := batchOne_answers (w := w) (t := t) (Or.inl mf)
  have hall : ∀ t', batchAll dig lower w false [g] t' = ((batchOne dig lower w false g t').1, .ok ()) := by
    intro t'
    obtain ⟨g1, _⟩ := batchOne_answers (w := w) (t := t') (Or.inl mg)
    unfold batchAll
    rw [if_pos ((video_iff lower g).mpr hg)]
    cases h : batchOne dig lower w false g t' with
    | mk t1 r =>
      rw [h] at g1
      dsimp only at g1
      subst g1
      rfl
  have : batchAll dig lower w false [f, g] t = ((batchOne dig lower w false g (batchOne dig lower w false f t).1).1, .ok ()) := by
    rw [batchAll, if_pos ((video_iff lower f).mpr hf)]
    cases h : batchOne dig lower w false f t with
    | mk t1 r =>
      rw [h] at f1
      dsimp only at f1
      subst f1
      exact hall t1
  refine ⟨by rw [this], ?_, hframe⟩
  rw [this, hs, hn]
  obtain ⟨_, hl⟩ := batchOne_answers (w := w) (t := (batchOne dig lower w false f t).1) (Or.inl mg)
  rcases hl with ⟨s', k1, _, k3, _⟩ | ⟨hm, _⟩
  · have : s' = s := by
      have := hgs.symm.trans k1
      cases this; rfl
    rw [← this]; exact k3
  · exact absurd mg hm

theorem exits_not_returned (s : Nat) (msg : Str) (hs : s ≠ 0) : mainEnd true (.exits s msg) ≠ .returned := by
  have : mainEnd true (.exits s msg) = srsHandle true .value msg := by
    rw [mainEnd, if_pos rfl, if_neg hs]
  rw [this]
  exact (handle_true _ _).1

theorem keep_not_returned (dig : Nat → Bool) (lower : Str → Str) (w : BatchWorld) (f : BatchFile) : w.fin dig lower true f ≠ .returned := by
  unfold BatchWorld.fin
  rw [if_pos rfl]
  unfold BatchWorld.keepBody
  generalize MediaFile.kind dig lower ⟨(w.call f).path, f.data, none⟩ = r
  cases r with
  | error e => exact (handle_true _ _).1
  | ok k => cases k <;> exact exits_not_returned 1 _ (by omega)

/-- C100, violation.  With `-n` no SRS is ever made, and the first video that is recognised, or of no known kind, ends the run. -/
theorem batch_n {dig : Nat → Bool} {lower : Str → Str} {w : BatchWorld} (l : List BatchFile) (t : OutTree) :
    (∀ k, ¬ str ".txt" <:+ k.2 → (batchAll dig lower w true l t).1 k = t k) ∧
    ∀ f post, l = f :: post → Video lower f → (∃ k, MediaFile.kind dig lower ⟨(w.call f).path, f.data, none⟩ = .ok k) →
      (batchAll dig lower w true l t).2 = .error .type := by
  refine ⟨?_, ?_⟩
  · induction l generalizing t with
    | nil => intro _ _; rfl
    | cons f l ih =>
      intro k hk
      have hone : (batchOne dig lower w true f t).1 k = t k := by
        have hkt : k ≠ f.txt := fun h => hk (by rw [h]; exact List.suffix_append _ _)
        unfold batchOne
        split
        · rename_i h
          exact absurd h (keep_not_returned dig lower w f)
        · exact put_other _ _ hkt
        · exact put_other _ _ hkt
        · exact put_other _ _ hkt
      unfold batchAll
      split
      · split
        · rename_i heq
          rw [heq] at hone; exact hone
        · rename_i heq
          rw [heq] at hone
          rw [ih _ k hk]; exact hone
      · exact ih t k hk
  · rintro f post rfl hv ⟨kk, hk⟩
    have hend : ∃ m, w.fin dig lower true f = .raised .type m := by
      unfold BatchWorld.fin
      rw [if_pos rfl]
      refine (stops_iff _).mpr (Or.inl ?_)
      unfold BatchWorld.keepBody
      rw [hk]
      split
      · rename_i h; cases h
      · exact ⟨1, _, rfl, by omega, unknown_not_aborting _ _⟩
      · exact ⟨1, _, rfl, by omega, by decide +kernel⟩
    obtain ⟨m, hm⟩ := hend
    unfold batchAll batchOne
    rw [if_pos ((video_iff lower f).mpr hv), hm]

/-! ### Cases -/

def vobData : Bytes := [0, 0, 1, 0xBA] ++ List.replicate 40 7

def exampleBatch : BatchWorld := { app := str "pyReScene", indir := str "/r", size := fun _ => str "44", enc := fun s => s.map UInt8.ofNat }

/-- Two videos that differ in the extension, one in another folder, a text, and an empty video. -/
def vob1 : BatchFile := ⟨str ".", str "s.vob", vobData⟩
def vob2 : BatchFile := ⟨str ".", str "s.m2ts", vobData⟩
def vob3 : BatchFile := ⟨str "a", str "s.VOB", vobData⟩
def noVideo : BatchFile := ⟨str ".", str "s.txt", []⟩
def emptyVideo : BatchFile := ⟨str ".", str "b.avi", []⟩

set_option maxRecDepth 100000 in
theorem vobs_ended : srsMakeBody (fun _ => false) lowerStr (exampleBatch.call vob1) = .ended ∧ srsMakeBody (fun _ => false) lowerStr (exampleBatch.call vob2) = .ended ∧
    srsMakeBody (fun _ => false) lowerStr (exampleBatch.call vob3) = .ended := by
  decide +kernel

theorem vobs_video : Video lowerStr vob1 ∧ Video lowerStr vob2 ∧ Video lowerStr vob3 ∧ Video lowerStr emptyVideo ∧ ¬ Video lowerStr noVideo := by
  simp only [← video_iff]
  decide

/-- The hypotheses of `batch_partial` are met. -/
example : (∀ f ∈ [vob1, noVideo, vob3], Video lowerStr f → BatchAnswers (fun _ => false) lowerStr exampleBatch f) ∧
    ([vob1, noVideo, vob3].Pairwise fun f g => Video lowerStr f → Video lowerStr g → (f.sub, f.name) ≠ (g.sub, g.name) ∧ (f.sub, stem f.name) ≠ (g.sub, stem g.name)) := by
  refine ⟨?_, ?_⟩
  · intro f hf hv
    simp only [List.mem_cons, List.not_mem_nil, or_false] at hf
    rcases hf with rfl | rfl | rfl
    · exact Or.inl ((make_ended _ _ _).mp vobs_ended.1)
    · exact absurd hv vobs_video.2.2.2.2
    · exact Or.inl ((make_ended _ _ _).mp vobs_ended.2.2)
  · simp only [List.pairwise_cons, List.mem_cons, List.not_mem_nil, or_false, forall_eq_or_imp, forall_eq, false_imp_iff, implies_true, and_true, List.Pairwise.nil]
    exact ⟨⟨fun _ h => absurd h vobs_video.2.2.2.2, fun _ _ => by decide⟩, fun h => absurd h vobs_video.2.2.2.2⟩

/-- The hypotheses of `batch_collide` are met. -/
example : vob1.sub = vob2.sub ∧ stem vob1.name = stem vob2.name ∧ Makes (fun _ => false) lowerStr (exampleBatch.call vob1) ∧
    Makes (fun _ => false) lowerStr (exampleBatch.call vob2) :=
  ⟨rfl, rfl, (make_ended _ _ _).mp vobs_ended.1, (make_ended _ _ _).mp vobs_ended.2.1⟩

example (t : OutTree) : (batchAll (fun _ => false) lowerStr exampleBatch false [noVideo, emptyVideo, vob1] t).2 = .error .type :=
  (batch_stops (pre := [noVideo]) (by
    intro g hg hv
    rw [List.mem_singleton.mp hg] at hv
    exact absurd hv vobs_video.2.2.2.2) (by simp) vobs_video.2.2.2.1 (by decide)).1

end Rescene.Props
