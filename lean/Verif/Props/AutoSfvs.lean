import Verif.Lemmas.AutoSfvs
import Verif.Props.FirstRars
import Verif.Props.SrsFiles
/-
Which SFV files of a release list its volumes.
-/
namespace Rescene.Props
open Rescene Rescene.Spec

private theorem mainSfvs_ok {w : SfvWorld} {dig : Nat → Bool} {lower : Str → Str} {release : Str} {sfvs main : List Str}
    (h : mainSfvs w dig lower release sfvs = .ok main) :
    ∃ q : Str → Bool, (∀ s ∈ sfvs, q s = true ↔ ¬ Unwanted w dig lower (lower (basename release)) s) ∧
      main = if (sfvs.filter q).isEmpty then sfvs.filter (fun s => decide ((w.listed s).length > 1) || hasMusic (w.listed s)) else sfvs.filter q := by
  obtain ⟨r, hr, h⟩ := bind_eq_ok.1 h
  obtain ⟨q, hq, rfl⟩ := filterRes_ok hr
  simp only [Except.ok.injEq] at h
  exact ⟨q, fun s hs => wantedSfv_iff (hq s hs), h.symm⟩

private theorem hasMusic_iff {names : List Str} : hasMusic names = true ↔ ∃ f ∈ names, ∃ e ∈ [str ".mp3", str ".flac", str ".mp2"], e <:+ f := by
  unfold hasMusic endsWith
  rw [List.any_eq_true]
  simp only [Bool.or_eq_true, List.isSuffixOf_iff_suffix, List.mem_cons, List.not_mem_nil, or_false, exists_eq_or_imp, exists_eq_left, or_assoc]

/-- The SFV files for the SRR are those of the release itself.  Only when there is none, they are those that list
more than one file, or music. -/
theorem main_sfvs (w : SfvWorld) (dig : Nat → Bool) (lower : Str → Str) (release : Str) (sfvs main : List Str)
    (h : mainSfvs w dig lower release sfvs = .ok main) :
    main.Sublist sfvs ∧
    ((∃ s ∈ sfvs, ¬ Unwanted w dig lower (lower (basename release)) s) →
      ∀ s, s ∈ main ↔ s ∈ sfvs ∧ ¬ Unwanted w dig lower (lower (basename release)) s) ∧
    ((∀ s ∈ sfvs, Unwanted w dig lower (lower (basename release)) s) →
      ∀ s, s ∈ main ↔ s ∈ sfvs ∧ (2 ≤ (w.listed s).length ∨ ∃ f ∈ w.listed s, ∃ e ∈ [str ".mp3", str ".flac", str ".mp2"], e <:+ f)) := by
  obtain ⟨q, hq, rfl⟩ := mainSfvs_ok h
  refine ⟨?_, ?_, ?_⟩
  · split <;> exact List.filter_sublist
  · rintro ⟨s, hs, hu⟩
    rw [if_neg]
    · intro t
      rw [List.mem_filter]
      constructor
      · rintro ⟨h1, h2⟩; exact ⟨h1, (hq t h1).1 h2⟩
      · rintro ⟨h1, h2⟩; exact ⟨h1, (hq t h1).2 h2⟩
    · intro he
      rw [List.isEmpty_iff] at he
      have := List.mem_filter.2 ⟨hs, (hq s hs).2 hu⟩
      rw [he] at this
      simp at this
  · intro hall
    rw [if_pos]
    · intro t
      rw [List.mem_filter, Bool.or_eq_true, decide_eq_true_eq, hasMusic_iff]
      exact Iff.rfl
    · rw [List.isEmpty_iff, List.filter_eq_nil_iff]
      intro s hs hqs
      exact (hq s hs).1 hqs (hall s hs)

/-- An SFV file in the folder of the release, without a word for subtitles in its name, is among them. -/
theorem main_root_kept (w : SfvWorld) (dig : Nat → Bool) (lower : Str → Str) (release name : Str) (sfvs main : List Str)
    (h : mainSfvs w dig lower release sfvs = .ok main) (hr : RootOk release) (hn : 0x2F ∉ name) (hs : release ++ 0x2F :: name ∈ sfvs)
    (h1 : ¬ Says ["vobsub", "subtitle", "subs"] (lower name)) (h2 : ¬ PartFolder (lower (basename release)))
    (h3 : lower (basename release) ≠ str "proof" ∧ lower (basename release) ≠ str "proofs") (h4 : ¬ SubsDisk dig release) :
    release ++ 0x2F :: name ∈ main := by
  have hu : ¬ Unwanted w dig lower (lower (basename release)) (release ++ 0x2F :: name) := by
    unfold Unwanted
    simp only
    rw [basename_slash release hn, dirname_slash hn hr.1 hr.2.1]
    rintro (h | h | h | h | h)
    · rcases h with ⟨⟨x, hx, h⟩, _⟩ | ⟨⟨x, hx, h⟩, _⟩
      · exact h1 ⟨x, by simp only [List.mem_cons, List.not_mem_nil, or_false] at hx ⊢; rcases hx with hx | hx <;> simp [hx], h⟩
      · exact h1 ⟨x, by simp only [List.mem_cons, List.not_mem_nil, or_false] at hx ⊢; simp [hx], h⟩
    · exact h2 h
    · rcases h.1 with h | h
      · exact h3.1 h
      · exact h3.2 h
    · exact h4 h
    · obtain ⟨x, _, h5, h6⟩ := h
      exact h6 h5
  exact ((main_sfvs w dig lower release sfvs main h).2.1 ⟨_, hs, hu⟩ _).2 ⟨hs, hu⟩

/-- A single SFV file that lists more than one file is always the one, whatever its name and folder. -/
theorem main_single (w : SfvWorld) (dig : Nat → Bool) (lower : Str → Str) (release sfv : Str) (h : 2 ≤ (w.listed sfv).length) :
    mainSfvs w dig lower release [sfv] = .ok [sfv] := by
  have hok : ∃ b, wantedSfv w dig lower (lower (basename release)) sfv = .ok b := by
    have hp : ∃ b, proofTest w lower (lower (basename (dirname sfv))) sfv = .ok b := by
      unfold proofTest
      split
      · unfold proofOut
        split
        · rename_i e; rw [e] at h; simp at h
        · exact ⟨_, rfl⟩
      · exact ⟨_, rfl⟩
    obtain ⟨b, hb⟩ := hp
    unfold wantedSfv
    simp only [hb, ok_bind]
    repeat' split
    all_goals exact ⟨_, rfl⟩
  obtain ⟨b, hb⟩ := hok
  unfold mainSfvs
  simp only [filterRes, hb, ok_bind]
  cases b with
  | true => simp
  | false => simp; omega

/-- The other SFV files are the rest. -/
theorem extra_sfvs (all main : List Str) (hd : all.Nodup) (hm : main.Sublist all) : (main ++ extraSfvs all main).Perm all := by
  unfold extraSfvs
  have e : main = all.filter fun s => main.contains s := by
    induction hm with
    | slnil => rfl
    | @cons l₁ l₂ a h ih =>
      rw [List.nodup_cons] at hd
      rw [List.filter_cons, if_neg, ← ih hd.2]
      intro hc
      exact hd.1 (h.mem (List.contains_iff_mem.1 hc))
    | @cons_cons l₁ l₂ a h ih =>
      rw [List.nodup_cons] at hd
      rw [List.filter_cons, if_pos (by simp)]
      congr 1
      have : l₂.filter (fun s => (a :: l₁).contains s) = l₂.filter fun s => l₁.contains s := by
        apply List.filter_congr
        intro s hs
        have : s ≠ a := fun e => hd.1 (e ▸ hs)
        simp [this]
      rw [this]
      exact ih hd.2
  conv => lhs; lhs; rw [e]
  exact List.filter_append_perm _ _

/-- The volumes that samples are checked against are the first ones that the SFV files list. -/
theorem start_rars (w : SfvWorld) (dig : Nat → Bool) (lower : Str → Str) (sfvs : List Str) :
    (∀ p ∈ startRars w dig lower sfvs, ∃ s ∈ sfvs, ∃ f ∈ w.listed s, p = posixJoin2 (dirname s) f) ∧
    (∀ s ∈ sfvs, (∀ f ∈ w.listed s, 0x0A ∉ f) → ∀ f ∈ w.listed s, FirstName dig f → posixJoin2 (dirname s) f ∈ startRars w dig lower sfvs) := by
  unfold startRars
  constructor
  · intro p hp
    obtain ⟨s, hs, hp⟩ := List.mem_flatMap.1 hp
    obtain ⟨f, hf, rfl⟩ := List.mem_map.1 hp
    exact ⟨s, hs, f, (first_rars_from_input dig lower _).mem hf, rfl⟩
  · intro s hs hnl f hf hff
    exact List.mem_flatMap.2 ⟨s, hs, List.mem_map.2 ⟨f, (first_rars_are_first dig lower _ hnl ⟨f, hf, hff⟩).2 f hf hff, rfl⟩⟩

/-- When each SFV file lists one complete set in the old naming, there is one volume for each. -/
theorem start_rars_old (w : SfvWorld) (dig : Nat → Bool) (lower : Str → Str) (hl : LowerOk lower) (base : Str → Str) (sfvs : List Str)
    (h : ∀ s ∈ sfvs, 0x0A ∉ base s ∧ ∃ n, 0 < n ∧ (w.listed s).Perm ((List.range n).map (oldVol (base s)))) :
    startRars w dig lower sfvs = sfvs.map fun s => posixJoin2 (dirname s) (base s ++ str ".rar") := by
  unfold startRars
  induction sfvs with
  | nil => rfl
  | cons s sfvs ih =>
    obtain ⟨h1, n, h2, h3⟩ := h s (by simp)
    rw [List.flatMap_cons, first_rars_old dig lower hl (base s) h1 n _ h2 h3, ih fun t ht => h t (by simp [ht])]
    rfl

/-! ### Examples and violations -/

private def dig (c : Nat) : Bool := 0x30 ≤ c && c ≤ 0x39

/-- A movie with subtitles and a proof. -/
private def movieW : SfvWorld where
  listed := fun s =>
    if s = str "/r/a.movie-grp/a.sfv" then [str "a.rar", str "a.r00"]
    else if s = str "/r/a.movie-grp/Proof/a-proof.sfv" then [str "a-proof.rar"]
    else [str "a-subs.rar"]
  archive := fun p => if p = str "/r/a.movie-grp/Proof/a-proof.rar" then some (.ok [str "a-proof.jpg"]) else none

private def lowerAscii (s : Str) : Str := s.map lowerA

set_option maxRecDepth 100000 in
example : mainSfvs movieW dig lowerAscii (str "/r/a.movie-grp")
    [str "/r/a.movie-grp/Subs/a.sfv", str "/r/a.movie-grp/a.sfv", str "/r/a.movie-grp/Proof/a-proof.sfv", str "/r/a.movie-grp/a-vobsubs.sfv"] =
    .ok [str "/r/a.movie-grp/a.sfv"] := by
  have : ∀ a b : Res (List Str), (match a, b with | .ok x, .ok y => decide (x = y) | _, _ => false) = true → a = b := by
    intro a b h
    cases a <;> cases b <;> simp at h
    rw [h]
  exact this _ _ (by decide +kernel)

set_option maxRecDepth 100000 in
/-- `main_root_kept` applies to it. -/
example : ¬ Says ["vobsub", "subtitle", "subs"] (lowerAscii (str "a.sfv")) ∧ ¬ PartFolder (lowerAscii (str "a.movie-grp")) ∧
    ¬ SubsDisk dig (str "/r/a.movie-grp") :=
  ⟨by rw [← saysAny_iff]; decide +kernel, by unfold PartFolder; decide +kernel, by rw [← subsCd_iff]; decide +kernel⟩

set_option maxRecDepth 100000 in
/-- The SFV file of the movie, with the letters `subs` in its name, is not used when there is another one: the SRR
holds the extras only. -/
theorem main_subs_letters_violated :
    mainSfvs ⟨fun s => if s = str "/r/sub.sam-exvid/exvid-subsam.sfv" then [str "exvid-subsam.rar", str "exvid-subsam.r00", str "exvid-subsam.r01"] else [str "extra.rar"], fun _ => none⟩
      dig lowerAscii (str "/r/sub.sam-exvid") [str "/r/sub.sam-exvid/exvid-subsam.sfv", str "/r/sub.sam-exvid/Extra/extra.sfv"] =
    .ok [str "/r/sub.sam-exvid/Extra/extra.sfv"] := by
  have : ∀ a b : Res (List Str), (match a, b with | .ok x, .ok y => decide (x = y) | _, _ => false) = true → a = b := by
    intro a b h
    cases a <;> cases b <;> simp at h
    rw [h]
  exact this _ _ (by decide +kernel)

end Rescene.Props
