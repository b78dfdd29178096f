import Verif.Lemmas.SrsFiles
import Verif.Model.StreamSrs
import Verif.Props.SrsData
/-
C52, C53, C60: what `srs` leaves on disk when it rebuilds a sample.
-/
namespace Rescene.Props
open Rescene.Spec

/-- The temporary files did not exist (utility.py:464 checks this) and are other files than the
result. -/
def NewTemps (j : SrsJob) (fs : FS) : Prop :=
  ∀ a ∈ j.first :: j.retries, fs (j.loc (j.tmp a)) = none ∧ j.loc (j.tmp a) ≠ j.loc j.result

/-- The temporary files of a run. -/
def temps (j : SrsJob) (q : Path) : Prop := ∃ a ∈ j.first :: j.retries, q = j.loc (j.tmp a)

theorem temps_result {j : SrsJob} {fs : FS} (h : NewTemps j fs) : ¬ temps j (j.loc j.result) := by
  rintro ⟨a, ha, he⟩
  exact (h a ha).2 he.symm

theorem temps_old {j : SrsJob} {fs : FS} (h : NewTemps j fs) {q : Path} (hq : fs q ≠ none) : ¬ temps j q := by
  rintro ⟨a, ha, rfl⟩
  exact hq (h a ha).1

theorem temps_all {j : SrsJob} : ∀ a ∈ j.first :: j.retries, temps j (j.loc (j.tmp a)) := fun a ha => ⟨a, ha, rfl⟩

/-! ### C52 -/

/-- C52: without -k, whatever fails while the sample is rebuilt and written: what is at the
result path at the end has the CRC of the SRS, or it is what was there before.  When the rebuild
is reported as successful it is the former.  (Deleting and renaming files must not fail.) -/
theorem srs_result_right_partial {j : SrsJob} {fs fs' : FS} {faults : List Fault} {r : Res Unit}
    (hn : NewTemps j fs) (hk : j.keep = false) (hf : FaultsIn Act.isIo (srsFiles j) fs faults)
    (h : run (srsFiles j) fs faults = (fs', r)) :
    (∀ c, fs' (j.loc j.result) = some c →
      (r = .ok () ∧ (crc32 c 0).toNat = j.crc) ∨ (r ≠ .ok () ∧ fs (j.loc j.result) = some c)) ∧
    (r = .ok () → ∃ c, fs' (j.loc j.result) = some c) := by
  have := run_srsFiles (temps_result hn) temps_all hf
  rw [h] at this
  cases this with
  | unchanged hs =>
    refine ⟨fun c hc => Or.inr ⟨by simp, ?_⟩, by simp⟩
    rw [← hs _ (temps_result hn)]
    exact hc
  | good ha hc hcrc hr ho =>
    refine ⟨fun c hc' => Or.inl ⟨rfl, ?_⟩, fun _ => ⟨_, hr⟩⟩
    rw [hr] at hc'
    injection hc' with hc'
    rw [← hc', hcrc]
  | kept _ _ _ hk' => rw [hk] at hk'; simp at hk'
  | deleted _ _ hr _ =>
    refine ⟨fun c hc => ?_, by simp⟩
    rw [hr] at hc
    simp at hc

/-- C52: with -k too, success means that the CRC is right. -/
theorem srs_success_right {j : SrsJob} {fs fs' : FS} {faults : List Fault}
    (hn : NewTemps j fs) (hf : FaultsIn Act.isIo (srsFiles j) fs faults)
    (h : run (srsFiles j) fs faults = (fs', .ok ())) :
    ∃ a ∈ j.first :: j.retries, ∃ c, a.content = .ok c ∧ fs' (j.loc j.result) = some c ∧ (crc32 c 0).toNat = j.crc := by
  have := run_srsFiles (temps_result hn) temps_all hf
  rw [h] at this
  cases this with
  | good ha hc hcrc hr ho => exact ⟨_, ha, _, hc, hr, hcrc⟩

/-- C52, C60: no other file is touched: files that existed and are not at the result path stay as
they are, at every moment, also when the process is killed. -/
theorem srs_others_untouched {j : SrsJob} {fs m : FS} (hn : NewTemps j fs) (hm : Moment Act.isIo (srsFiles j) fs m)
    {q : Path} (hq : fs q ≠ none) (hr : q ≠ j.loc j.result) : m q = fs q :=
  (moment_srsFiles (temps_result hn) temps_all hm).1 q (temps_old hn hq) hr

/-! ### C60 -/

/-- C60: rebuilding a music file over the file it is rebuilt from never loses that file: at the
end it is unchanged, or the rebuilt file with the right CRC is in its place and success is
reported; also with -k. -/
theorem srs_music_source_kept {j : SrsJob} {fs fs' : FS} {faults : List Fault} {r : Res Unit}
    (hn : NewTemps j fs) (hmu : j.music = true) (hex : fs (j.loc j.movie) ≠ none)
    (hf : FaultsIn Act.isIo (srsFiles j) fs faults) (h : run (srsFiles j) fs faults = (fs', r)) :
    fs' (j.loc j.movie) = fs (j.loc j.movie) ∨
      (r = .ok () ∧ j.loc j.movie = j.loc j.result ∧ ∃ c, fs' (j.loc j.movie) = some c ∧ (crc32 c 0).toNat = j.crc) := by
  have := run_srsFiles (temps_result hn) temps_all hf
  rw [h] at this
  by_cases hl : j.loc j.movie = j.loc j.result
  · cases this with
    | unchanged hs => exact Or.inl (hs _ (temps_old hn hex))
    | good ha hc hcrc hr ho => exact Or.inr ⟨rfl, hl, _, by rw [hl]; exact hr, hcrc⟩
    | kept _ _ _ _ hnm => exact absurd ⟨hmu, hl⟩ hnm
    | deleted _ hnm => exact absurd ⟨hmu, hl⟩ hnm
  · refine Or.inl ?_
    cases this with
    | unchanged hs => exact hs _ (temps_old hn hex)
    | good _ _ _ _ ho => exact ho _ (temps_old hn hex) hl
    | kept _ _ _ _ _ _ ho => exact ho _ (temps_old hn hex) hl
    | deleted _ _ _ ho => exact ho _ (temps_old hn hex) hl

/-- C60: also when the process is killed: at every moment the music file it is rebuilt from is
unchanged, or the right contents are in its place or in the temporary file. -/
theorem srs_music_crash_safe {j : SrsJob} {fs m : FS} (hn : NewTemps j fs) (hmu : j.music = true)
    (hl : j.loc j.movie = j.loc j.result) (hm : Moment Act.isIo (srsFiles j) fs m) :
    m (j.loc j.movie) = fs (j.loc j.movie) ∨
      ∃ a ∈ j.first :: j.retries, ∃ d, a.content = .ok d ∧ (crc32 d 0).toNat = j.crc ∧
        (m (j.loc j.movie) = some d ∨ m (j.loc (j.tmp a)) = some d) := by
  obtain ⟨_, h⟩ := moment_srsFiles (temps_result hn) temps_all hm
  rw [hl]
  rcases h with h | h | h
  · exact Or.inl h
  · exact Or.inr h
  · exact absurd ⟨hmu, hl⟩ h

/-! ### Runs without faults -/

theorem run_chunks_ok {src p : Path} {cs : List (Res Bytes)} {k : Prog} {h : Err → Prog} {fs : FS}
    {c w : Bytes} (hw : chunksVal cs = .ok w) (hc : fs p = some c) :
    run (writeChunks src p cs k h) fs [] = run k (fs.set p (some (c ++ w))) [] := by
  induction cs generalizing fs c w with
  | nil =>
    simp [chunksVal] at hw; subst hw
    rw [List.append_nil, FS.set_same fs p _ hc]
    rfl
  | cons x cs ih =>
    cases x with
    | error e => simp [chunksVal] at hw
    | ok b =>
      simp only [chunksVal, bind_eq_ok] at hw
      obtain ⟨r, hr, hw⟩ := hw
      simp at hw; subst hw
      simp only [writeChunks, run, step, List.headD_nil, List.tail_nil, appendTo, hc, Option.getD_some]
      rw [ih hr (FS.set_eq _ _ _), FS.set_set, List.append_assoc]

theorem run_srsWrite_ok {j : SrsJob} {a : Attempt} {k : Prog} {fs : FS} {d : Bytes} (hd : a.content = .ok d) :
    run (srsWrite j a k) fs [] = run k (fs.set (j.loc (j.tmp a)) (some d)) [] := by
  rw [content_eq] at hd
  unfold srsWrite
  simp only [run, step, List.headD_nil, List.tail_nil]
  rw [run_chunks_ok hd (FS.set_eq _ _ _), FS.set_set, List.nil_append]
  simp only [run, step, List.headD_nil, List.tail_nil]

theorem run_replace_ok {j : SrsJob} {src dest : Path} {k : Prog} {fs : FS} {d : Bytes}
    (hp : dest <+: src) (hne : j.loc src ≠ j.loc dest) (hs : fs (j.loc src) = some d) :
    run (replaceResult j src dest k) fs [] = run k ((fs.set (j.loc src) none).set (j.loc dest) (some d)) [] := by
  unfold replaceResult
  rw [if_pos (List.isPrefixOf_iff_prefix.2 hp)]
  simp only [run, List.headD_nil, List.tail_nil]
  by_cases hex : (fs (j.loc dest)).isSome
  · simp only [step, hex, if_true]
    rw [FS.set_ne _ _ hne, hs]
    dsimp only
    congr 1
    funext q
    simp only [FS.set]
    split
    · rfl
    · split
      · rfl
      · rfl
  · simp only [step, hex, if_false, Bool.false_eq_true, if_true, run, List.headD_nil, List.tail_nil, hs]

theorem basename_slash (a : Str) {b : Str} (hb : 0x2F ∉ b) : basename (a ++ 0x2F :: b) = b := by
  unfold basename
  rw [splitOn_append, splitOn_of_not_mem hb]
  simp

theorem basename_plain {b : Str} (hb : 0x2F ∉ b) : basename b = b := by
  unfold basename
  rw [splitOn_of_not_mem hb]
  simp

theorem join_plain {a b : Str} (hb : b.head? ≠ some 0x2F) :
    posixJoin2 a b = if a = [] ∨ a.getLast? = some 0x2F then a ++ b else a ++ 0x2F :: b := by
  unfold posixJoin2
  rw [if_neg hb]

/-- `dirname` of a path in a folder given without a slash at the end. -/
theorem dirname_slash {o b : Str} (hb : 0x2F ∉ b) (ho : o ≠ []) (hl : o.getLast? ≠ some 0x2F) :
    dirname (o ++ 0x2F :: b) = o := by
  unfold dirname
  rw [basename_slash o hb]
  have e : (o ++ 0x2F :: b).take ((o ++ 0x2F :: b).length - b.length) = o ++ [0x2F] := by
    rw [show o ++ 0x2F :: b = (o ++ [0x2F]) ++ b by simp, List.take_append_of_le_length (by simp; omega)]
    rw [List.take_of_length_le (by simp; omega)]
  rw [e]
  dsimp only
  obtain ⟨x, hx⟩ : ∃ x, o.getLast? = some x := by
    cases h : o.getLast? with
    | none => rw [List.getLast?_eq_none_iff] at h; exact absurd h ho
    | some x => exact ⟨x, rfl⟩
  obtain ⟨o', rfl⟩ := List.getLast?_eq_some_iff.1 hx
  have hx' : (x == 0x2F) = false := by
    rw [hx] at hl
    simpa using hl
  rw [if_neg (by simp [hx'])]
  simp [hx']

/-- A file name in a folder: the temporary file has a name that begins with the result's, unless
the folder is given with two slashes at the end. -/
theorem result_prefix {out name : Str} (rnd : Str) (hp : PlainElem name) (ho : ¬ [0x2F, 0x2F] <:+ out) :
    posixJoin2 out name <+: tempName rnd (posixJoin2 out name) := by
  obtain ⟨hne, _, _, hns⟩ := hp
  have hh : ∀ x, (name ++ x).head? ≠ some 0x2F := by
    intro x hx
    cases name with
    | nil => exact hne rfl
    | cons c n => simp at hx hns; omega
  have hh0 : name.head? ≠ some 0x2F := by simpa using hh []
  -- a folder without a slash at the end
  have key : ∀ o : Str, o ≠ [] → o.getLast? ≠ some 0x2F →
      o ++ 0x2F :: name <+: tempName rnd (o ++ 0x2F :: name) := by
    intro o ho hl
    unfold tempName
    rw [dirname_slash hns ho hl, basename_slash o hns, join_plain (hh _), if_neg (by simp [ho, hl])]
    exact ⟨[0x2D] ++ (rnd ++ str ".tmp"), by simp⟩
  rw [join_plain hh0]
  by_cases h0 : out = []
  · subst h0
    rw [if_pos (Or.inl rfl), List.nil_append]
    unfold tempName
    have : dirname name = [] := by
      unfold dirname
      rw [basename_plain hns]
      simp
    rw [this, basename_plain hns, join_plain (hh _), if_pos (Or.inl rfl), List.nil_append]
    exact List.prefix_append _ _
  · by_cases hl : out.getLast? = some 0x2F
    · rw [if_pos (Or.inr hl)]
      obtain ⟨o, rfl⟩ := List.getLast?_eq_some_iff.1 hl
      rw [show o ++ [0x2F] ++ name = o ++ 0x2F :: name by simp]
      by_cases hoe : o = []
      · subst hoe
        unfold tempName
        rw [basename_slash [] hns]
        have : dirname ([] ++ 0x2F :: name) = [0x2F] := by
          unfold dirname
          rw [basename_slash [] hns]
          simp
        rw [this, join_plain (hh _), if_pos (Or.inr (by simp))]
        exact ⟨[0x2D] ++ (rnd ++ str ".tmp"), by simp⟩
      · refine key o hoe fun hl' => ho ?_
        obtain ⟨o', rfl⟩ := List.getLast?_eq_some_iff.1 hl'
        exact ⟨o', by simp⟩
    · rw [if_neg (by simp [h0, hl])]
      exact key out h0 hl

theorem result_prefix' {j : SrsJob} (a : Attempt) (hp : PlainElem j.name) (ho : ¬ [0x2F, 0x2F] <:+ j.outFolder) :
    j.result <+: j.tmp a := result_prefix a.rnd hp ho

/-- C52: a sample that is rebuilt with the right CRC is put in place, and the temporary file is
gone: for names that name an entry of a folder, and an output folder that is not given
with two slashes at the end. -/
theorem srs_good_placed {j : SrsJob} {fs : FS} {d : Bytes} (hn : NewTemps j fs) (hal : j.allowed = true)
    (hp : PlainElem j.name) (ho : ¬ [0x2F, 0x2F] <:+ j.outFolder)
    (hd : j.first.content = .ok d) (hc : (crc32 d 0).toNat = j.crc) :
    run (srsFiles j) fs [] = (fs.set (j.loc j.result) (some d), .ok ()) := by
  obtain ⟨h1, h2⟩ := hn j.first (by simp)
  unfold srsFiles
  rw [if_pos hal, run_srsWrite_ok hd, if_pos ((good_iff hd).2 hc)]
  unfold srsFinish
  rw [if_pos ((good_iff hd).2 hc), run_replace_ok (result_prefix' _ hp ho) h2 (FS.set_eq _ _ _), run]
  congr 1
  rw [FS.set_set, FS.set_same _ _ _ h1]

/-- C60 is false for other samples: when the CRC is wrong, without -k, a file that was at the
result path is gone, even though nothing replaces it. -/
theorem srs_failure_deletes_existing {j : SrsJob} {fs : FS} {d : Bytes} (hn : NewTemps j fs) (hal : j.allowed = true)
    (hp : PlainElem j.name) (ho : ¬ [0x2F, 0x2F] <:+ j.outFolder)
    (hd : j.first.content = .ok d) (hc : (crc32 d 0).toNat ≠ j.crc) (hr : j.retries = []) (hk : j.keep = false)
    (hm : j.music = false) :
    run (srsFiles j) fs [] = (fs.set (j.loc j.result) none, .error .other) := by
  obtain ⟨h1, h2⟩ := hn j.first (by simp)
  have hg : ¬ j.good j.first = true := fun h => hc ((good_iff hd).1 h)
  unfold srsFiles
  rw [if_pos hal, run_srsWrite_ok hd, if_neg hg, if_pos hr]
  unfold srsFinish
  rw [if_neg hg, hk, if_neg (by simp), if_pos hm, run_replace_ok (result_prefix' _ hp ho) h2 (FS.set_eq _ _ _)]
  simp only [run, step, List.headD_nil, List.tail_nil, FS.set_eq, Option.isSome_some, if_true, raise]
  rw [FS.set_set, FS.set_set, FS.set_same _ _ _ h1]

/-- C52: with two slashes at the end of the output folder a good rebuild is not put in place: the
names are compared and the check fails. -/
theorem srs_double_slash_fails {j : SrsJob} {fs : FS} {d : Bytes} {o : Str} (hal : j.allowed = true)
    (hp : PlainElem j.name) (hoe : o ≠ []) (hl : o.getLast? ≠ some 0x2F) (ho : j.outFolder = o ++ [0x2F, 0x2F])
    (hd : j.first.content = .ok d) (hc : (crc32 d 0).toNat = j.crc) :
    run (srsFiles j) fs [] = (fs.set (j.loc (j.tmp j.first)) (some d), .error .assertError) := by
  obtain ⟨hne, _, _, hns⟩ := hp
  have hh : ∀ x, (j.name ++ x).head? ≠ some 0x2F := by
    intro x hx
    cases h : j.name with
    | nil => exact hne h
    | cons c n => rw [h] at hx hns; simp at hx hns; omega
  have e1 : j.result = o ++ 0x2F :: 0x2F :: j.name := by
    unfold SrsJob.result
    rw [join_plain (by simpa using hh []), ho, if_pos (Or.inr (by simp))]
    simp
  have e2 : dirname (o ++ 0x2F :: 0x2F :: j.name) = o := by
    have hb : basename (o ++ 0x2F :: 0x2F :: j.name) = j.name := by
      rw [show o ++ 0x2F :: 0x2F :: j.name = (o ++ [0x2F]) ++ 0x2F :: j.name by simp, basename_slash _ hns]
    have e : (o ++ 0x2F :: 0x2F :: j.name).take ((o ++ 0x2F :: 0x2F :: j.name).length - j.name.length) = o ++ [0x2F, 0x2F] := by
      rw [show o ++ 0x2F :: 0x2F :: j.name = (o ++ [0x2F, 0x2F]) ++ j.name by simp,
        List.take_append_of_le_length (by simp; omega)]
      rw [List.take_of_length_le (by simp; omega)]
    unfold dirname
    rw [hb, e]
    dsimp only
    obtain ⟨x, hx⟩ : ∃ x, o.getLast? = some x := by
      cases h : o.getLast? with
      | none => rw [List.getLast?_eq_none_iff] at h; exact absurd h hoe
      | some x => exact ⟨x, rfl⟩
    obtain ⟨o', rfl⟩ := List.getLast?_eq_some_iff.1 hx
    have hx' : (x == 0x2F) = false := by
      rw [hx] at hl
      simpa using hl
    rw [if_neg (by simp [hx'])]
    simp [hx']
  have e3 : j.tmp j.first = o ++ 0x2F :: (j.name ++ ([0x2D] ++ (j.first.rnd ++ str ".tmp"))) := by
    unfold SrsJob.tmp tempName
    rw [e1, e2, show o ++ 0x2F :: 0x2F :: j.name = (o ++ [0x2F]) ++ 0x2F :: j.name by simp, basename_slash _ hns,
      join_plain (hh _), if_neg (by simp [hoe, hl])]
  have hg : j.good j.first = true := (good_iff hd).2 hc
  unfold srsFiles
  rw [if_pos hal, run_srsWrite_ok hd, if_pos hg]
  unfold srsFinish replaceResult
  rw [if_pos hg, if_neg]
  · rfl
  · rw [List.isPrefixOf_iff_prefix, e3, e1, List.prefix_append_right_inj]
    rintro ⟨t, ht⟩
    simp only [List.cons_append, List.cons.injEq, true_and] at ht
    exact hh _ (by rw [← ht]; rfl)

/-! ### C61 -/

/-- C61: when there was no second attempt, a successful run leaves no file except the result. -/
theorem srs_no_temp_left_partial {j : SrsJob} {fs : FS} {d : Bytes} (hn : NewTemps j fs) (hal : j.allowed = true)
    (hp : PlainElem j.name) (ho : ¬ [0x2F, 0x2F] <:+ j.outFolder)
    (hd : j.first.content = .ok d) (hc : (crc32 d 0).toNat = j.crc) {q : Path} (hq : q ≠ j.loc j.result) :
    (run (srsFiles j) fs []).1 q = fs q := by
  rw [srs_good_placed hn hal hp ho hd hc]
  exact FS.set_ne _ _ hq

/-- C61 is false otherwise: when the second attempt succeeds, what the first one wrote stays
behind. -/
theorem srs_retry_leaves_temp {j : SrsJob} {fs : FS} {d d' : Bytes} {b : Attempt} {rest : List Attempt}
    (hn : NewTemps j fs) (hal : j.allowed = true)
    (hp : PlainElem j.name) (ho : ¬ [0x2F, 0x2F] <:+ j.outFolder) (hr : j.retries = b :: rest)
    (hd : j.first.content = .ok d) (hc : (crc32 d 0).toNat ≠ j.crc)
    (hd' : b.content = .ok d') (hc' : (crc32 d' 0).toNat = j.crc) (hne : j.loc (j.tmp j.first) ≠ j.loc (j.tmp b)) :
    ∃ fs', run (srsFiles j) fs [] = (fs', .ok ()) ∧ fs (j.loc (j.tmp j.first)) = none ∧
      fs' (j.loc (j.tmp j.first)) = some d := by
  obtain ⟨h1, h2⟩ := hn j.first (by simp)
  obtain ⟨h3, h4⟩ := hn b (by simp [hr])
  have hg : ¬ j.good j.first = true := fun h => hc ((good_iff hd).1 h)
  have hg' : j.good b = true := (good_iff hd').2 hc'
  refine ⟨?fs, ?run, h1, ?last⟩
  case run =>
    unfold srsFiles
    rw [if_pos hal, run_srsWrite_ok hd, if_neg hg, if_neg (by simp [hr]), hr]
    unfold srsRetry
    dsimp only
    rw [run_srsWrite_ok hd', if_pos hg']
    unfold srsFinish
    rw [if_pos hg', run_replace_ok (result_prefix' _ hp ho) h4 (FS.set_eq _ _ _), run]
  case last => rw [FS.set_ne _ _ h2, FS.set_ne _ _ hne, FS.set_ne _ _ hne, FS.set_eq]

theorem run_srsRetry_good {j : SrsJob} (hp : PlainElem j.name) (ho : ¬ [0x2F, 0x2F] <:+ j.outFolder)
    {l : List Attempt} {prev : Option Attempt} {fs fs0 : FS}
    (hne : ∀ a ∈ l, fs0 (j.loc (j.tmp a)) = none ∧ j.loc (j.tmp a) ≠ j.loc j.result)
    (hpv : match prev with
      | none => fs = fs0
      | some p => fs0 (j.loc (j.tmp p)) = none ∧ ∃ x, fs = fs0.set (j.loc (j.tmp p)) (some x))
    (hall : ∀ a ∈ l, ∃ d, a.content = .ok d) (hg : ∃ a ∈ l, j.good a = true) :
    ∃ a ∈ l, ∃ d, a.content = .ok d ∧ (crc32 d 0).toNat = j.crc ∧
      run (srsRetry j prev l) fs [] = (fs0.set (j.loc j.result) (some d), .ok ()) := by
  induction l generalizing prev fs with
  | nil => obtain ⟨a, ha, _⟩ := hg; simp at ha
  | cons a rest ih =>
    obtain ⟨h3, h4⟩ := hne a (by simp)
    obtain ⟨d, hd⟩ := hall a (by simp)
    have e : run (srsRetry j prev (a :: rest)) fs [] =
        run (if j.good a then srsFinish j a else srsRetry j (some a) rest) (fs0.set (j.loc (j.tmp a)) (some d)) [] := by
      rw [srsRetry.eq_def]
      cases prev with
      | none => dsimp only at hpv ⊢; subst hpv; exact run_srsWrite_ok hd
      | some p =>
        dsimp only at hpv ⊢
        obtain ⟨h0, x, rfl⟩ := hpv
        simp only [run, step, List.headD_nil, List.tail_nil, FS.set_eq, Option.isSome_some, if_true]
        rw [FS.set_set, FS.set_same _ _ _ h0, run_srsWrite_ok hd]
    rw [e]
    by_cases hga : j.good a = true
    · refine ⟨a, by simp, d, hd, (good_iff hd).1 hga, ?_⟩
      rw [if_pos hga]
      unfold srsFinish
      rw [if_pos hga, run_replace_ok (result_prefix' _ hp ho) h4 (FS.set_eq _ _ _), run]
      rw [FS.set_set, FS.set_same _ _ _ h3]
    · rw [if_neg hga]
      obtain ⟨a', ha', hga'⟩ := hg
      obtain ⟨b, hb, d', h1, h2, h5⟩ := ih (prev := some a) (fs := fs0.set (j.loc (j.tmp a)) (some d))
        (fun b hb => hne b (by simp [hb])) ⟨h3, d, rfl⟩ (fun b hb => hall b (by simp [hb]))
        ⟨a', by
          rcases List.mem_cons.1 ha' with h | h
          · subst h; exact absurd hga' hga
          · exact h, hga'⟩
      exact ⟨b, by simp [hb], d', h1, h2, h5⟩

/-- C52, C61: when one of the attempts gives the right CRC (and none of them is cut short by an
exception), the sample is put in place, and the only other file left is the one the first
attempt wrote, if that was not the good one. -/
theorem srs_any_good_placed {j : SrsJob} {fs : FS} (hn : NewTemps j fs) (hal : j.allowed = true)
    (hp : PlainElem j.name) (ho : ¬ [0x2F, 0x2F] <:+ j.outFolder)
    (hdiff : ∀ a ∈ j.retries, j.loc (j.tmp a) ≠ j.loc (j.tmp j.first))
    (hall : ∀ a ∈ j.first :: j.retries, ∃ d, a.content = .ok d) (hg : ∃ a ∈ j.first :: j.retries, j.good a = true) :
    ∃ fs' d, run (srsFiles j) fs [] = (fs', .ok ()) ∧ fs' (j.loc j.result) = some d ∧ (crc32 d 0).toNat = j.crc ∧
      ∀ q, q ≠ j.loc j.result → q ≠ j.loc (j.tmp j.first) → fs' q = fs q := by
  obtain ⟨d, hd⟩ := hall j.first (by simp)
  by_cases hgf : j.good j.first = true
  · have hc := (good_iff hd).1 hgf
    exact ⟨_, d, srs_good_placed hn hal hp ho hd hc, FS.set_eq _ _ _, hc, fun q hq _ => FS.set_ne _ _ hq⟩
  · obtain ⟨a, ha, hga⟩ := hg
    have ha' : a ∈ j.retries := by
      rcases List.mem_cons.1 ha with h | h
      · subst h; exact absurd hga hgf
      · exact h
    obtain ⟨b, hb, d', h1, h2, h3⟩ := run_srsRetry_good (j := j) (l := j.retries) (prev := none)
      (fs := fs.set (j.loc (j.tmp j.first)) (some d)) (fs0 := fs.set (j.loc (j.tmp j.first)) (some d)) hp ho
      (fun a ha => ⟨by rw [FS.set_ne _ _ (hdiff a ha)]; exact (hn a (by simp [ha])).1, (hn a (by simp [ha])).2⟩) rfl
      (fun a ha => hall a (by simp [ha])) ⟨a, ha', hga⟩
    refine ⟨(fs.set (j.loc (j.tmp j.first)) (some d)).set (j.loc j.result) (some d'), d', ?_, FS.set_eq _ _ _, h2, ?_⟩
    rotate_left 1
    · intro q hq hq'
      exact (FS.set_ne _ _ hq).trans (FS.set_ne _ _ hq')
    · unfold srsFiles
      rw [if_pos hal, run_srsWrite_ok hd, if_neg hgf, if_neg (by intro h; rw [h] at ha'; simp at ha'), h3]

/-- When the user does not allow replacing an existing file, nothing is touched. -/
theorem srs_refused {j : SrsJob} {fs : FS} {faults : List Fault} (hal : j.allowed = false) :
    run (srsFiles j) fs faults = (fs, .error .other) ∧ ∀ m may, Moment may (srsFiles j) fs m → m = fs := by
  unfold srsFiles
  rw [if_neg (by simp [hal])]
  exact ⟨rfl, fun m may hm => moment_done hm⟩

/-! ### C52: a moment with a bad file at the result path -/

theorem moment_chunks_through {may : Act → Bool} {src p : Path} {cs : List (Res Bytes)} {k : Prog} {h : Err → Prog} {fs m : FS}
    {c w : Bytes} (hw : chunksVal cs = .ok w) (hc : fs p = some c)
    (hm : Moment may k (fs.set p (some (c ++ w))) m) : Moment may (writeChunks src p cs k h) fs m := by
  induction cs generalizing fs c w with
  | nil =>
    simp [chunksVal] at hw; subst hw
    rw [List.append_nil, FS.set_same fs p _ hc] at hm
    exact hm
  | cons x cs ih =>
    cases x with
    | error e => simp [chunksVal] at hw
    | ok b =>
      simp only [chunksVal, bind_eq_ok] at hw
      obtain ⟨r, hr, hw⟩ := hw
      simp at hw; subst hw
      unfold writeChunks
      refine .step (fs' := fs) rfl (.step (fs' := fs.set p (some (c ++ b))) ?_ ?_)
      · simp [step, appendTo, hc]
      · refine ih hr (FS.set_eq _ _ _) ?_
        rw [FS.set_set, List.append_assoc]
        exact hm

theorem moment_srsWrite_through {may : Act → Bool} {j : SrsJob} {a : Attempt} {k : Prog} {fs m : FS} {d : Bytes}
    (hd : a.content = .ok d) (hm : Moment may k (fs.set (j.loc (j.tmp a)) (some d)) m) :
    Moment may (srsWrite j a k) fs m := by
  rw [content_eq] at hd
  unfold srsWrite
  refine .step rfl (moment_chunks_through hd (FS.set_eq _ _ _) ?_)
  rw [FS.set_set, List.nil_append]
  exact .step rfl hm

theorem moment_replace_through {may : Act → Bool} {j : SrsJob} {src dest : Path} {k : Prog} {fs m : FS} {d : Bytes}
    (hp : dest <+: src) (hne : j.loc src ≠ j.loc dest) (hs : fs (j.loc src) = some d)
    (hm : Moment may k ((fs.set (j.loc src) none).set (j.loc dest) (some d)) m) :
    Moment may (replaceResult j src dest k) fs m := by
  unfold replaceResult
  rw [if_pos (List.isPrefixOf_iff_prefix.2 hp)]
  dsimp only
  by_cases hex : (fs (j.loc dest)).isSome
  · refine .step (fs' := fs.set (j.loc dest) none) (by simp [step, hex]) (.step ?_ hm)
    simp only [step, FS.set_ne _ _ hne, hs]
    congr 1
    funext q
    simp only [FS.set]
    split
    · rfl
    · split
      · rfl
      · rfl
  · refine .fail (f := none) (fs' := fs) (e := .envError) (by simp [step, hex]) (by simp) ?_
    rw [if_pos rfl]
    exact .step (by simp [step, hs]) hm

/-- C52 does not hold at every moment: a video sample with the wrong CRC is first put at the
result path and then deleted.  A process that is killed between leaves the bad file there. -/
theorem srs_bad_file_moment {j : SrsJob} {fs : FS} {d : Bytes} (hn : NewTemps j fs) (hal : j.allowed = true)
    (hp : PlainElem j.name) (ho : ¬ [0x2F, 0x2F] <:+ j.outFolder)
    (hd : j.first.content = .ok d) (hc : (crc32 d 0).toNat ≠ j.crc) (hr : j.retries = []) (hk : j.keep = false)
    (hm : j.music = false) : ∃ m, Moment (fun _ => false) (srsFiles j) fs m ∧ m (j.loc j.result) = some d := by
  obtain ⟨h1, h2⟩ := hn j.first (by simp)
  have hg : ¬ j.good j.first = true := fun h => hc ((good_iff hd).1 h)
  refine ⟨((fs.set (j.loc (j.tmp j.first)) (some d)).set (j.loc (j.tmp j.first)) none).set (j.loc j.result) (some d),
    ?_, FS.set_eq _ _ _⟩
  · unfold srsFiles
    rw [if_pos hal]
    refine moment_srsWrite_through hd ?_
    rw [if_neg hg, if_pos hr]
    unfold srsFinish
    rw [if_neg hg, hk, if_neg (by simp), if_pos hm]
    exact moment_replace_through (result_prefix' _ hp ho) h2 (FS.set_eq _ _ _) .now

/-! ### C53 -/

/-- C53: a sample whose name in the SRS is the name of a file, not a path, is written in the
output folder. -/
theorem srs_result_in_folder_partial (cwd : List Str) {j : SrsJob} (hp : PlainElem j.name) (ho : j.outFolder ≠ []) :
    place cwd j.result = place cwd j.outFolder ++ [j.name] := by
  have := walk_base cwd j.outFolder [j.name] ho (by simpa using hp) (by simp)
  simpa [posixJoin, joinWith, SrsJob.result] using this

theorem basename_cons (c : Nat) (s : Str) :
    basename (c :: s) = if c ≠ 0x2F ∧ 0x2F ∉ s then c :: s else basename s := by
  by_cases hm : 0x2F ∈ s
  · rw [if_neg (by simp [hm])]
    obtain ⟨a, b, rfl⟩ := List.append_of_mem hm
    have : ∀ a b : Str, basename (a ++ 0x2F :: b) = basename b := by
      intro a b
      unfold basename
      rw [splitOn_append, List.getLast?_append]
      cases h : (splitOn 0x2F b).getLast? with
      | none => rw [List.getLast?_eq_none_iff] at h; exact absurd h (splitOn_ne_nil _ _)
      | some x => rfl
    rw [← List.cons_append, this, this]
  · by_cases hc : c = 0x2F
    · subst hc
      rw [if_neg (by simp)]
      rw [show 0x2F :: s = [] ++ 0x2F :: s from rfl, basename_slash [] hm, basename_plain hm]
    · rw [if_pos ⟨hc, hm⟩, basename_plain (by simp [hm]; omega)]

theorem basename_no_slash (s : Str) : 0x2F ∉ basename s := by
  induction s with
  | nil => simp [basename, splitOn]
  | cons c s ih =>
    rw [basename_cons]
    split
    · rename_i h
      simp [h.2]; omega
    · exact ih

theorem basename_suffix (s : Str) : basename s <:+ s := by
  induction s with
  | nil => simp [basename, splitOn]
  | cons c s ih =>
    rw [basename_cons]
    split
    · exact List.suffix_rfl
    · exact ih.trans (List.suffix_cons _ _)

/-- Where a relative path leads from a folder. -/
theorem place_join (cwd : List Str) {base rel : Str} (hb : base ≠ []) (hr : rel.head? ≠ some 0x2F) :
    place cwd (posixJoin2 base rel) = walk (place cwd base) (splitOn 0x2F rel) := by
  have hbh : ∀ x, (base ++ x).head? = base.head? := by
    intro x; cases base with
    | nil => exact absurd rfl hb
    | cons c t => rfl
  rw [join_plain hr]
  by_cases hl : base.getLast? = some 0x2F
  · rw [if_pos (Or.inr hl)]
    obtain ⟨b', rfl⟩ := List.getLast?_eq_some_iff.mp hl
    unfold place
    rw [hbh, show b' ++ [0x2F] ++ rel = b' ++ 0x2F :: rel by simp, splitOn_append, walk_append, splitOn_append, walk_append]
    simp [splitOn, walk]
  · rw [if_neg (by simp [hb, hl])]
    unfold place
    rw [hbh, splitOn_append, walk_append]

/-- C53: the program itself writes only the last component of a path in an SRS: a name without
"/" (what it makes from a path that ends in "/" or ".." is not a name of a file). -/
theorem srs_name_written {app : Str} {flags : Nat} {name : Str} {size crc : Nat} {b post : Bytes} {f : FileData}
    (h : fileSerialize app flags name size crc = .ok b) (hl : fileParse (b ++ post) = .ok f) :
    0x2F ∉ f.name ∧ f.name <:+ name := by
  rw [file_data_round_trip h] at hl
  injection hl with hl
  subst hl
  exact ⟨basename_no_slash name, basename_suffix name⟩

/-- C53 is false: the name in an SRS is used as it is.  An absolute name is written wherever it
says, whatever the output folder. -/
theorem srs_absolute_name {j : SrsJob} {rest : Str} (h : j.name = 0x2F :: rest) : j.result = j.name := by
  unfold SrsJob.result posixJoin2
  rw [h]
  simp

/-- C53 is false: a name with ".." leaves the output folder. -/
theorem srs_parent_name (cwd : List Str) {j : SrsJob} {n : Str} (ho : j.outFolder ≠ []) (hn : PlainElem n)
    (h : j.name = str "../" ++ n) : place cwd j.result = (place cwd j.outFolder).dropLast ++ [n] := by
  have hs : str "../" ++ n = [0x2E, 0x2E] ++ 0x2F :: n := by rw [show str "../" = [0x2E, 0x2E, 0x2F] by decide]; rfl
  unfold SrsJob.result
  rw [place_join cwd ho (by rw [h, hs]; simp), h, hs, splitOn_append, splitOn_of_not_mem (by decide),
    splitOn_of_not_mem hn.2.2.2]
  simp [walk, hn.1, hn.2.1, hn.2.2.1]

/-! ### Concrete cases -/

/-- A file for which an SRS is made below. -/
def srsSample : Bytes := [1, 2, 3, 4]

/-- A run that rebuilds `srsSample` as "out/s.vob". -/
def srsJob (chunks : List (Res Bytes)) (keep music : Bool) (retries : List Attempt) : SrsJob where
  outFolder := str "out"
  name := str "s.vob"
  crc := 0xB63CFBCD
  keep := keep
  music := music
  movie := str "m.vob"
  srs := str "s.srs"
  loc := id
  allowed := true
  first := ⟨str "a", chunks⟩
  retries := retries

/-- The movie, the SRS and an older file at the result path. -/
def srsDisk : FS := fun q =>
  if q = str "m.vob" then some [0, 1, 2, 3, 4] else if q = str "s.srs" then some [7]
  else if q = str "out/s.vob" then some [9, 9] else none

theorem srsSample_crc : (crc32 srsSample 0).toNat = 0xB63CFBCD := by decide +kernel

theorem srsNew (chunks : List (Res Bytes)) (keep music : Bool) : NewTemps (srsJob chunks keep music []) srsDisk := by
  intro a ha
  simp only [srsJob, List.mem_singleton] at ha
  subst ha
  exact ⟨show srsDisk (tempName (str "a") (posixJoin2 (str "out") (str "s.vob"))) = none by decide +kernel,
    show tempName (str "a") (posixJoin2 (str "out") (str "s.vob")) ≠ posixJoin2 (str "out") (str "s.vob") by decide +kernel⟩

theorem srsNew2 (chunks chunks' : List (Res Bytes)) (keep music : Bool) :
    NewTemps (srsJob chunks keep music [⟨str "b", chunks'⟩]) srsDisk := by
  intro a ha
  simp only [srsJob, List.mem_cons, List.not_mem_nil, or_false] at ha
  rcases ha with rfl | rfl
  · exact ⟨show srsDisk (tempName (str "a") (posixJoin2 (str "out") (str "s.vob"))) = none by decide +kernel,
      show tempName (str "a") (posixJoin2 (str "out") (str "s.vob")) ≠ posixJoin2 (str "out") (str "s.vob") by decide +kernel⟩
  · exact ⟨show srsDisk (tempName (str "b") (posixJoin2 (str "out") (str "s.vob"))) = none by decide +kernel,
      show tempName (str "b") (posixJoin2 (str "out") (str "s.vob")) ≠ posixJoin2 (str "out") (str "s.vob") by decide +kernel⟩

theorem srsExName : PlainElem (str "s.vob") := by unfold PlainElem; decide +kernel
theorem srsExOut : ¬ [0x2F, 0x2F] <:+ str "out" := by
  rw [← List.isSuffixOf_iff_suffix]; decide +kernel

/-- A good rebuild. -/
example : run (srsFiles (srsJob [.ok [1, 2], .ok [3, 4]] false false [])) srsDisk [] =
    (srsDisk.set (str "out/s.vob") (some srsSample), .ok ()) :=
  srs_good_placed (srsNew _ _ _) rfl srsExName srsExOut rfl srsSample_crc

/-- A bad one: the older file is lost. -/
example : run (srsFiles (srsJob [.ok [1, 2, 3]] false false [])) srsDisk [] =
    (srsDisk.set (str "out/s.vob") none, .error .other) :=
  srs_failure_deletes_existing (d := [1, 2, 3]) (srsNew _ _ _) rfl srsExName srsExOut rfl (by decide +kernel) rfl rfl rfl

/-- A bad one, and a kill. -/
example : ∃ m, Moment (fun _ => false) (srsFiles (srsJob [.ok [1, 2, 3]] false false [])) srsDisk m ∧
    m (str "out/s.vob") = some [1, 2, 3] :=
  srs_bad_file_moment (d := [1, 2, 3]) (srsNew _ _ _) rfl srsExName srsExOut rfl (by decide +kernel) rfl rfl rfl

/-- A second attempt. -/
example : ∃ fs', run (srsFiles (srsJob [.ok [1, 2, 3]] false false [⟨str "b", [.ok srsSample]⟩])) srsDisk [] = (fs', .ok ()) ∧
    srsDisk (str "out/s.vob-a.tmp") = none ∧ fs' (str "out/s.vob-a.tmp") = some [1, 2, 3] := by
  obtain ⟨fs', h1, h2, h3⟩ := srs_retry_leaves_temp (j := srsJob [.ok [1, 2, 3]] false false [⟨str "b", [.ok srsSample]⟩])
    (d := [1, 2, 3]) (d' := srsSample) (srsNew2 _ _ _ _) rfl srsExName srsExOut rfl rfl (by decide +kernel) rfl
    srsSample_crc (by decide +kernel)
  have e : (srsJob [.ok [1, 2, 3]] false false [⟨str "b", [.ok srsSample]⟩]).tmp ⟨str "a", [.ok [1, 2, 3]]⟩ =
      str "out/s.vob-a.tmp" := by decide +kernel
  exact ⟨fs', h1, by decide +kernel, by rw [← e]; exact h3⟩

/-- Writing to the temporary file fails: the hypotheses of `srs_result_right_partial` hold. -/
example : ∃ fs' r, run (srsFiles (srsJob [.ok srsSample] false false [])) srsDisk [none, none, some (.envError, 1)] = (fs', r) ∧
    FaultsIn Act.isIo (srsFiles (srsJob [.ok srsSample] false false [])) srsDisk [none, none, some (.envError, 1)] ∧
    fs' (str "out/s.vob") = some [9, 9] ∧ r = .error .envError := by
  refine ⟨_, _, rfl, ?_, ?_, ?_⟩
  · simp [FaultsIn, srsFiles, srsWrite, writeChunks, srsJob, step, Act.isIo, raise]
  · decide +kernel
  · decide +kernel

set_option maxRecDepth 10000 in
/-- A music file rebuilt over itself, with the wrong CRC: it stays, and so does the temporary
file. -/
example (r : FS × Res Unit)
    (h : r = run (srsFiles { srsJob [.ok [1, 2, 3]] false true [] with movie := str "out/s.vob" }) srsDisk []) :
    r.2 = .error .other ∧ r.1 (str "out/s.vob") = some [9, 9] ∧ r.1 (str "out/s.vob-a.tmp") = some [1, 2, 3] := by
  subst h
  decide +kernel

/-- Two slashes. -/
example : ∃ fs', run (srsFiles { srsJob [.ok srsSample] false true [] with outFolder := str "out//" }) srsDisk [] =
      (fs', .error .assertError) :=
  ⟨_, srs_double_slash_fails (o := str "out") (d := srsSample) rfl srsExName (by decide +kernel) (by decide +kernel) rfl rfl
    srsSample_crc⟩

/-- The stream of the SRS of `srsSample`, with the CRC of `srsSample` but another size. -/
theorem srs_size_unchecked : ∃ srs, streamCreateSrs [] (str "s.vob") 99 0xB63CFBCD
      [(1, { number := 1, dataLength := 4, sig := srsSample })] false = .ok srs ∧
    srsReconstruct srs [0, 1, 2, 3, 4] false = .ok ⟨srsSample, 99, 0xB63CFBCD, true⟩ := by
  refine ⟨_, rfl, ?_⟩
  decide +kernel

/-- C53: an SRS can carry an absolute name and is then used like any other. -/
theorem srs_absolute_loaded : ∃ srs f tracks, streamLoadSrs srs = .ok (f, tracks) ∧ f.name = str "/etc/x" := by
  refine ⟨mSTRM ++ [8, 0, 0, 0] ++ (mSRSF ++ [32, 0, 0, 0] ++ ([3, 0, 0, 0, 6, 0] ++ [0x2F, 0x65, 0x74, 0x63, 0x2F, 0x78]
    ++ [4, 0, 0, 0, 0, 0, 0, 0] ++ [0xCD, 0xFB, 0x3C, 0xB6])), ⟨3, [], str "/etc/x", 4, 0xB63CFBCD⟩, [], ?_, rfl⟩
  decide +kernel

end Rescene.Props
