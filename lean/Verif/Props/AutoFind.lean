import Verif.Lemmas.AutoFind2
import Verif.Props.ImageSize
/-
C89: which files of a release are taken as samples, proofs and covers.
-/
namespace Rescene.Props
open Rescene Rescene.Spec

/-- The folders and files of the release have names that a file system allows, and its path is absolute. -/
structure FindOk (w : FindWorld) : Prop where
  root : RootOk w.root
  names : NamesOk w.tree
  files : FilesOk w.tree
  lower : KeepsLower w.lower

/-! ### Finding files -/

/-- The files with an extension are exactly those in the folders of the release, each once. -/
theorem files_found {w : FindWorld} (h : FindOk w) {ext : String} (he : w.lower (str ext) = str ext) :
    (∀ f, f ∈ w.files ext ↔ ∃ name, FileAt w.root w.tree f name ∧ HasExtn w.lower ext name) ∧ (w.files ext).Nodup := by
  refine ⟨fun f => ?_, ?_⟩
  · simp only [FindWorld.files, getFiles, List.mem_map, List.mem_filter, endsWith, List.isSuffixOf_iff_suffix, he]
    constructor
    · rintro ⟨⟨g, name⟩, ⟨hm, hs⟩, rfl⟩
      exact ⟨name, (mem_found h.names h.files h.root g name).1 hm, hs⟩
    · rintro ⟨name, hm, hs⟩
      exact ⟨(f, name), ⟨(mem_found h.names h.files h.root f name).2 hm, hs⟩, rfl⟩
  · exact (List.filter_sublist.map _).nodup (found_nodup h.names h.files h.root)

theorem two_exts {lower : Str → Str} {e e' : String} {name : Str} (h : HasExtn lower e name) (h' : HasExtn lower e' name) :
    str e <:+ str e' ∨ str e' <:+ str e := List.suffix_or_suffix_of_suffix h h'

/-- No video extension is the end of another one. -/
theorem video_exts_apart : ∀ e ∈ videoExtensions, ∀ e' ∈ videoExtensions, e <:+ e' → e = e' := by
  have : ∀ e ∈ videoExtensions, ∀ e' ∈ videoExtensions, e.isSuffixOf e' = true → e = e' := by decide +kernel
  intro e he e' he' hs
  exact this e he e' he' (List.isSuffixOf_iff_suffix.2 hs)

theorem video_mem (lower : Str → Str) (name : Str) : (∃ e ∈ videoExtensions, e <:+ lower name) ↔ ∃ ext ∈ videoExts, HasExtn lower ext name := by
  simp only [videoExtensions, List.mem_map, HasExtn]
  constructor
  · rintro ⟨_, ⟨x, hx, rfl⟩, hs⟩; exact ⟨x, hx, hs⟩
  · rintro ⟨x, hx, hs⟩; exact ⟨_, ⟨x, hx, rfl⟩, hs⟩

/-- The videos are found, each once. -/
theorem videos_found {w : FindWorld} (h : FindOk w) :
    (∀ f, f ∈ getFilesList w.lower w.root w.tree videoExtensions ↔ ∃ name, FileAt w.root w.tree f name ∧ ∃ ext ∈ videoExts, HasExtn w.lower ext name) ∧
    (getFilesList w.lower w.root w.tree videoExtensions).Nodup := by
  refine ⟨fun f => ?_, ?_⟩
  · simp only [getFilesList, List.mem_flatMap, List.mem_map, List.mem_filter, endsWith, List.isSuffixOf_iff_suffix]
    constructor
    · rintro ⟨⟨g, name⟩, hm, e, ⟨he, hs⟩, rfl⟩
      exact ⟨name, (mem_found h.names h.files h.root g name).1 hm, (video_mem _ _).1 ⟨e, he, hs⟩⟩
    · rintro ⟨name, hm, hx⟩
      obtain ⟨e, he, hs⟩ := (video_mem _ _).2 hx
      exact ⟨(f, name), (mem_found h.names h.files h.root f name).2 hm, e, ⟨he, hs⟩, rfl⟩
  · refine nodup_flatMap ?_ ?_
    · intro x _
      have hnd : videoExtensions.Nodup := by decide +kernel
      have hone : ∀ l : List Str, l.Nodup → (∀ e ∈ l, e ∈ videoExtensions) → ((l.filter fun e => endsWith (w.lower x.2) e).map fun _ => x.1).Nodup := by
        intro l
        induction l with
        | nil => intro _ _; simp
        | cons e l ih =>
          intro hl hm
          rw [List.nodup_cons] at hl
          rw [List.filter_cons]
          split
          · rename_i hs
            have hnil : (l.filter fun e => endsWith (w.lower x.2) e) = [] := by
              rw [List.filter_eq_nil_iff]
              intro e' he' hs'
              simp only [endsWith, List.isSuffixOf_iff_suffix] at hs hs'
              have : e = e' := by
                rcases List.suffix_or_suffix_of_suffix hs hs' with hh | hh
                · exact video_exts_apart e (hm e (by simp)) e' (hm e' (by simp [he'])) hh
                · exact (video_exts_apart e' (hm e' (by simp [he'])) e (hm e (by simp)) hh).symm
              exact hl.1 (this ▸ he')
            rw [hnil]; simp
          · exact ih hl.2 fun y hy => hm y (by simp [hy])
      exact hone _ hnd fun _ h => h
    · have hd := found_nodup h.names h.files h.root
      rw [List.Nodup, List.pairwise_map] at hd
      refine hd.imp ?_
      intro x y hne a ha hb
      obtain ⟨_, _, rfl⟩ := List.mem_map.1 ha
      obtain ⟨_, _, e⟩ := List.mem_map.1 hb
      exact hne e.symm

/-! ### Samples -/

/-- The samples are exactly the videos with the word `sample` in the path, beside an SFV file of the same name (the
last four characters of the path replaced), or listed by an SFV file of the release; each is given once. -/
theorem samples {w : FindWorld} (h : FindOk w) :
    (∀ f, f ∈ sampleFiles w ↔ ∃ name, FileAt w.root w.tree f name ∧ (∃ ext ∈ videoExts, HasExtn w.lower ext name) ∧
      (PathSays w.lower "sample" f ∨ w.isThere (f.take (f.length - 4) ++ str ".sfv") = true ∨
       ∃ sfv n, FileAt w.root w.tree sfv n ∧ HasExtn w.lower ".sfv" n ∧ name ∈ w.listed sfv)) ∧
    (sampleFiles w).Nodup := by
  obtain ⟨hv, hnd⟩ := videos_found h
  have hsfv := (files_found (ext := ".sfv") h (h.lower _ (by decide))).1
  constructor
  · intro f
    simp only [sampleFiles, List.mem_append, List.mem_filter, hv, clearSample, Bool.or_eq_true, isIn_iff, Bool.not_eq_true',
      List.contains_eq_mem, decide_eq_true_eq, List.mem_flatMap, hsfv, ← Bool.not_eq_true]
    constructor
    · rintro (⟨⟨name, hf, hx⟩, hs | hs⟩ | ⟨⟨⟨name, hf, hx⟩, -⟩, sfv, ⟨n, hn, hext⟩, hm⟩)
      · exact ⟨name, hf, hx, Or.inl hs⟩
      · exact ⟨name, hf, hx, Or.inr (Or.inl hs)⟩
      · refine ⟨name, hf, hx, Or.inr (Or.inr ⟨sfv, n, hn, hext, ?_⟩)⟩
        rwa [fileAt_base h.files hf] at hm
    · rintro ⟨name, hf, hx, hs⟩
      by_cases hc : (str "sample" <:+: w.lower f ∨ w.isThere (f.take (f.length - 4) ++ str ".sfv") = true)
      · exact Or.inl ⟨⟨name, hf, hx⟩, hc⟩
      · rcases hs with hs | hs | ⟨sfv, n, hn, hext, hm⟩
        · exact absurd (Or.inl hs) hc
        · exact absurd (Or.inr hs) hc
        · refine Or.inr ⟨⟨⟨name, hf, hx⟩, hc⟩, sfv, ⟨n, hn, hext⟩, ?_⟩
          rwa [fileAt_base h.files hf]
  · unfold sampleFiles
    dsimp only
    rw [List.nodup_append]
    refine ⟨List.filter_sublist.nodup hnd, (List.filter_sublist.trans List.filter_sublist).nodup hnd, ?_⟩
    intro a ha b hb e
    subst e
    rw [List.mem_filter] at ha hb
    rw [List.mem_filter] at hb
    simp [ha.2] at hb

theorem lower_infix {a b : Str} (h : a <:+: b) : lowerStr a <:+: lowerStr b := by
  obtain ⟨s, t, rfl⟩ := h
  exact ⟨lowerStr s, lowerStr t, by simp [lowerStr]⟩

/-- In a folder with `sample` in its path, every video of a release is a sample, also the main one. -/
theorem sample_in_parent {w : FindWorld} (h : FindOk w) (hl : w.lower = lowerStr) (hs : PathSays w.lower "sample" w.root) {f name : Str}
    (hf : FileAt w.root w.tree f name) (hx : ∃ ext ∈ videoExts, HasExtn w.lower ext name) : f ∈ sampleFiles w := by
  rw [(samples h).1]
  refine ⟨name, hf, hx, Or.inl ?_⟩
  obtain ⟨ns, s, _, _, rfl⟩ := hf
  unfold PathSays at hs ⊢
  rw [hl] at hs ⊢
  exact hs.trans (lower_infix (pathAt_prefix _ _).isInfix)

/-- The music files are exactly the MP3, MP2 and FLAC files, each once, in this order of the kinds. -/
theorem music {w : FindWorld} (h : FindOk w) :
    (∀ f, f ∈ musicFiles w ↔ ∃ name, FileAt w.root w.tree f name ∧ (HasExtn w.lower ".mp3" name ∨ HasExtn w.lower ".mp2" name ∨ HasExtn w.lower ".flac" name)) ∧
    (musicFiles w).Nodup := by
  have hm : ∀ e ∈ [".mp3", ".mp2", ".flac"], w.lower (str e) = str e := by
    intro e he
    refine h.lower _ ?_
    revert e
    decide
  have h3 := files_found h (hm ".mp3" (by simp))
  have h2 := files_found h (hm ".mp2" (by simp))
  have hf := files_found h (hm ".flac" (by simp))
  constructor
  · intro f
    simp only [musicFiles, List.mem_append, h3.1, h2.1, hf.1]
    constructor
    · rintro ((⟨n, a, b⟩ | ⟨n, a, b⟩) | ⟨n, a, b⟩)
      · exact ⟨n, a, Or.inl b⟩
      · exact ⟨n, a, Or.inr (Or.inl b)⟩
      · exact ⟨n, a, Or.inr (Or.inr b)⟩
    · rintro ⟨n, a, b | b | b⟩
      · exact Or.inl (Or.inl ⟨n, a, b⟩)
      · exact Or.inl (Or.inr ⟨n, a, b⟩)
      · exact Or.inr ⟨n, a, b⟩
  · have key : ∀ {e e' : String}, w.lower (str e) = str e → w.lower (str e') = str e' → (str e).isSuffixOf (str e') = false → (str e').isSuffixOf (str e) = false →
        ∀ a ∈ w.files e, ∀ b ∈ w.files e', a ≠ b := by
      intro e e' he he' n1 n2 a ha b hb heq
      subst heq
      obtain ⟨n, hn, hx⟩ := ((files_found h he).1 _).1 ha
      obtain ⟨n', hn', hx'⟩ := ((files_found h he').1 _).1 hb
      have : n = n' := by rw [← fileAt_base h.files hn, ← fileAt_base h.files hn']
      subst this
      rcases two_exts hx hx' with hs | hs
      · rw [List.isSuffixOf_iff_suffix.2 hs] at n1; cases n1
      · rw [List.isSuffixOf_iff_suffix.2 hs] at n2; cases n2
    unfold musicFiles
    rw [List.nodup_append, List.nodup_append]
    refine ⟨⟨h3.2, h2.2, ?_⟩, hf.2, ?_⟩
    · exact key (hm _ (by simp)) (hm _ (by simp)) (by decide) (by decide)
    · intro a ha b hb
      rcases List.mem_append.1 ha with ha | ha
      · exact key (hm ".mp3" (by simp)) (hm ".flac" (by simp)) (by decide) (by decide) a ha b hb
      · exact key (hm ".mp2" (by simp)) (hm ".flac" (by simp)) (by decide) (by decide) a ha b hb

/-! ### Proofs and other images -/

theorem image_exts_apart : ∀ e ∈ proofExts ++ [".rar"], ∀ e' ∈ proofExts ++ [".rar"], str e <:+ str e' → e = e' := by
  have : ∀ e ∈ proofExts ++ [".rar"], ∀ e' ∈ proofExts ++ [".rar"], (str e).isSuffixOf (str e') = true → e = e' := by decide +kernel
  intro e he e' he' hs
  exact this e he e' he' (List.isSuffixOf_iff_suffix.2 hs)

theorem ext_lower {w : FindWorld} (h : FindOk w) : ∀ e ∈ proofExts ++ [".rar", ".sfv", ".nfo", ".m3u"], w.lower (str e) = str e := by
  have : ∀ e ∈ proofExts ++ [".rar", ".sfv", ".nfo", ".m3u"], ∀ c ∈ str e, c < 128 ∧ ¬ (0x41 ≤ c ∧ c ≤ 0x5A) := by decide +kernel
  intro e he
  exact h.lower _ (this e he)

/-- A file with two extensions of the lists. -/
theorem one_ext {w : FindWorld} (h : FindOk w) {e e' : String} (he : e ∈ proofExts ++ [".rar"]) (he' : e' ∈ proofExts ++ [".rar"]) {f : Str}
    (hf : f ∈ w.files e) (hf' : f ∈ w.files e') : e = e' := by
  have m1 : e ∈ proofExts ++ [".rar", ".sfv", ".nfo", ".m3u"] := by
    rcases List.mem_append.1 he with hh | hh <;> simp at * <;> simp [hh]
  have m2 : e' ∈ proofExts ++ [".rar", ".sfv", ".nfo", ".m3u"] := by
    rcases List.mem_append.1 he' with hh | hh <;> simp at * <;> simp [hh]
  obtain ⟨n, hn, hx⟩ := ((files_found h (ext_lower h e m1)).1 f).1 hf
  obtain ⟨n', hn', hx'⟩ := ((files_found h (ext_lower h e' m2)).1 f).1 hf'
  have : n = n' := (fileAt_base h.files hn).symm.trans (fileAt_base h.files hn')
  subst this
  rcases two_exts hx hx' with hh | hh
  · exact image_exts_apart e he e' he' hh
  · exact (image_exts_apart e' he' e he hh).symm

theorem images_nodup {w : FindWorld} (h : FindOk w) : (proofExts.flatMap w.files).Nodup := by
  refine nodup_flatMap ?_ ?_
  · intro e he
    exact (files_found h (ext_lower h e (by simp [he]))).2
  · have : proofExts.Pairwise (· ≠ ·) := by decide
    refine List.Pairwise.imp_of_mem ?_ this
    intro e e' he he' hne f hf hf'
    exact hne (one_ext h (by simp [he]) (by simp [he']) hf hf')

/-- The files of a release whose names are known to be good: its SFV, NFO, M3U and RAR files, without their last
four characters. -/
def Good (w : FindWorld) (good : Str) : Prop := ∃ f name, FileAt w.root w.tree f name ∧
  (∃ ext ∈ [".sfv", ".nfo", ".m3u", ".rar"], HasExtn w.lower ext name) ∧ good = name.take (name.length - 4)

theorem goodNames_iff {w : FindWorld} (h : FindOk w) (g : Str) : g ∈ goodNames w ↔ Good w g := by
  have e1 := (files_found h (ext_lower h ".sfv" (by simp))).1
  have e2 := (files_found h (ext_lower h ".nfo" (by simp))).1
  have e3 := (files_found h (ext_lower h ".m3u" (by simp))).1
  have e4 := (files_found h (ext_lower h ".rar" (by simp))).1
  unfold goodNames Good
  simp only [List.mem_map, List.mem_append, e1, e2, e3, e4]
  constructor
  · rintro ⟨f, ((⟨n, hn, hx⟩ | ⟨n, hn, hx⟩) | ⟨n, hn, hx⟩) | ⟨n, hn, hx⟩, rfl⟩
    all_goals
      rw [fileAt_base h.files hn]
      exact ⟨f, n, hn, ⟨_, by simp, hx⟩, rfl⟩
  · rintro ⟨f, n, hn, ⟨ext, he, hx⟩, rfl⟩
    refine ⟨f, ?_, by rw [fileAt_base h.files hn]⟩
    simp only [List.mem_cons, List.not_mem_nil, or_false] at he
    rcases he with rfl | rfl | rfl | rfl
    · exact Or.inl (Or.inl (Or.inl ⟨n, hn, hx⟩))
    · exact Or.inl (Or.inl (Or.inr ⟨n, hn, hx⟩))
    · exact Or.inl (Or.inr ⟨n, hn, hx⟩)
    · exact Or.inr ⟨n, hn, hx⟩

/-- Which images are wanted: those with a word of proofs in the path; of the others, except personal ones, all if the
user asks for more, those that start with 00 or 01, and those of more than 100000 bytes that are named like a file of
the release and are not 630 by 1200. -/
def WantedImage (w : FindWorld) (more : Bool) (img : Str) : Prop :=
  SaysProof w.lower img ∨ (¬ Personal w.lower img ∧
    (more = true ∨ str "00" <+: basename img ∨ str "01" <+: basename img ∨
      (100000 < w.size img ∧ (∃ g, Good w g ∧ Alike w.lower g img) ∧ imageSize w.std (w.data img) ≠ .ok (some (630, 1200)))))

/-- Capitals do not matter for this image: none of its parts has one, or its name is not compared. -/
def NoCapitals (w : FindWorld) (more : Bool) (img : Str) : Prop :=
  (∀ x, x <:+: img → w.lower x = x) ∨ SaysProof w.lower img ∨ more = true ∨ w.size img ≤ 100000

theorem image_wanted {w : FindWorld} (h : FindOk w) (more : Bool) {img : Str} (hc : NoCapitals w more img) :
    ∃ b, imageWanted w more img = .ok b ∧ (b = true ↔ WantedImage w more img) := by
  unfold imageWanted WantedImage
  by_cases h1 : SaysProof w.lower img
  · rw [if_pos ((proofWord_iff _ _).2 h1)]
    exact ⟨true, rfl, by simp [h1]⟩
  · rw [if_neg (fun hh => h1 ((proofWord_iff _ _).1 hh))]
    by_cases h2 : Personal w.lower img
    · rw [if_pos ((alwaysSkip_iff _ _).2 h2)]
      exact ⟨false, rfl, by simp [h1, h2]⟩
    · rw [if_neg (fun hh => h2 ((alwaysSkip_iff _ _).1 hh))]
      cases more with
      | true => exact ⟨true, by simp, by simp [h2]⟩
      | false =>
        simp only [Bool.false_eq_true, if_false, h1, h2, not_false_eq_true, true_and, false_or]
        have hz : (["00", "01", "001"].any fun p => (str p).isPrefixOf (basename img)) = true ↔ str "00" <+: basename img ∨ str "01" <+: basename img := by
          simp only [List.any_cons, List.any_nil, Bool.or_false, Bool.or_eq_true, List.isPrefixOf_iff_prefix]
          constructor
          · rintro (hh | hh | hh)
            · exact Or.inl hh
            · exact Or.inr hh
            · exact Or.inl (List.IsPrefix.trans ⟨str "1", by decide⟩ hh)
          · rintro (hh | hh)
            · exact Or.inl hh
            · exact Or.inr (Or.inl hh)
        unfold storeRoot
        by_cases h3 : str "00" <+: basename img ∨ str "01" <+: basename img
        · rw [if_pos (hz.2 h3)]
          refine ⟨true, rfl, ?_⟩
          rcases h3 with hh | hh <;> simp [hh]
        · rw [if_neg (fun hh => h3 (hz.1 hh))]
          rw [not_or] at h3
          by_cases h4 : w.size img > 100000
          · rw [if_pos h4]
            have hlow : ∀ x, x <:+: img → w.lower x = x := by
              rcases hc with hh | hh | hh | hh
              · exact hh
              · exact absurd hh h1
              · cases hh
              · omega
            have hsim : similarName w img = true ↔ ∃ g, Good w g ∧ Alike w.lower g img := by
              unfold similarName
              simp only [List.any_eq_true, goodNames_iff h, likeName_iff w.lower img _ hlow]
            by_cases h5 : ∃ g, Good w g ∧ Alike w.lower g img
            · rw [if_pos (hsim.2 h5)]
              obtain ⟨c, hcov⟩ := site_cover_ends w.std (w.data img)
              rw [hcov]
              refine ⟨!c, rfl, ?_⟩
              have := site_cover_iff w.std (w.data img)
              rw [hcov] at this
              cases c with
              | true => simp [h3, this.1 rfl]
              | false =>
                have hne : imageSize w.std (w.data img) ≠ .ok (some (630, 1200)) := fun hh => by have := this.2 hh; cases this
                simp [h4, h5, hne]
            · rw [if_neg (fun hh => h5 (hsim.1 hh))]
              exact ⟨false, rfl, by simp [h3, h5]⟩
          · rw [if_neg h4]
            refine ⟨false, rfl, ?_⟩
            simp only [h3.1, h3.2, false_or, Bool.false_eq_true, false_iff, not_and]
            omega

/-- An archive with proofs: `proof` is in the path and an image is in the archive, up to where it can be read. -/
def ProofRar (w : FindWorld) (rar : Str) : Prop :=
  PathSays w.lower "proof" rar ∧ ∃ n ∈ (w.archive rar).1, ∃ ext ∈ imageExts, w.lower (n.drop (n.length - 4)) = str ext

theorem stored_any (w : FindWorld) (rar : Str) : (w.archive rar).1.any (imageName w.lower) = true ↔
    ∃ n ∈ (w.archive rar).1, ∃ ext ∈ imageExts, w.lower (n.drop (n.length - 4)) = str ext := by
  simp only [List.any_eq_true, imageName, List.contains_eq_mem, decide_eq_true_eq, imageExts, List.mem_map]
  constructor
  · rintro ⟨n, hn, e, he, h⟩; exact ⟨n, hn, e, he, h.symm⟩
  · rintro ⟨n, hn, e, he, h⟩; exact ⟨n, hn, e, he, h.symm⟩

theorem rar_wanted {w : FindWorld} {rar : Str} {b : Bool} (hb : rarWanted w rar = .ok b) : b = true ↔ ProofRar w rar := by
  unfold rarWanted at hb
  unfold ProofRar
  split at hb
  · rename_i h1
    rw [isIn_iff] at h1
    unfold imageStored at hb
    split at hb
    · rename_i h2
      cases hb
      simp [PathSays, h1, (stored_any w rar).1 h2]
    · rename_i h2
      have : b = false := by
        split at hb
        · cases hb; rfl
        · cases hb; rfl
        · cases hb
      rw [this]
      exact Iff.intro (fun hh => Bool.noConfusion hh) (fun hh => absurd ((stored_any w rar).2 hh.2) h2)
  · rename_i h1
    cases hb
    rw [isIn_iff] at h1
    simp [PathSays, h1]

/-- No archive with `proof` in its path stops the program: what is wrong with it is reported as `ValueError` or comes after an
image. -/
def ReadableProofs (w : FindWorld) : Prop := ∀ rar ∈ w.files ".rar", PathSays w.lower "proof" rar →
  (w.archive rar).2 = none ∨ (w.archive rar).2 = some .valueError ∨ ProofRar w rar

/-- The proof files of a release are exactly the wanted images and the archives with proofs.  Missing: large images
with capitals in the path, whose names are compared with names in lower case (`capitals_missed`). -/
theorem proofs_partial {w : FindWorld} (h : FindOk w) (more : Bool) {l : List Str} (hl : proofFiles w more = .ok l) {f : Str}
    (hc : NoCapitals w more f) : f ∈ l ↔ ∃ name, FileAt w.root w.tree f name ∧
      (((∃ ext ∈ imageExts, HasExtn w.lower ext name) ∧ WantedImage w more f) ∨ (HasExtn w.lower ".rar" name ∧ ProofRar w f)) := by
  unfold proofFiles at hl
  obtain ⟨imgs, h1, hl⟩ := bind_eq_ok.1 hl
  obtain ⟨rars, h2, hl⟩ := bind_eq_ok.1 hl
  cases hl
  obtain ⟨q1, hq1, rfl⟩ := filterRes_ok h1
  obtain ⟨q2, hq2, rfl⟩ := filterRes_ok h2
  have er := (files_found h (ext_lower h ".rar" (by simp))).1
  have ei : f ∈ proofExts.flatMap w.files ↔ ∃ name, FileAt w.root w.tree f name ∧ ∃ ext ∈ imageExts, HasExtn w.lower ext name := by
    rw [List.mem_flatMap]
    constructor
    · rintro ⟨e, he, hf⟩
      obtain ⟨n, hn, hx⟩ := ((files_found h (ext_lower h e (by simp [he]))).1 f).1 hf
      exact ⟨n, hn, e, he, hx⟩
    · rintro ⟨n, hn, e, he, hx⟩
      exact ⟨e, he, ((files_found h (ext_lower h e (by have : e ∈ proofExts := he; simp [this]))).1 f).2 ⟨n, hn, hx⟩⟩
  rw [List.mem_append, List.mem_filter, List.mem_filter]
  constructor
  · rintro (⟨hm, hq⟩ | ⟨hm, hq⟩)
    · obtain ⟨n, hn, hx⟩ := ei.1 hm
      obtain ⟨b, hb, hw⟩ := image_wanted h more hc
      have := (hq1 f hm).symm.trans hb
      cases this
      exact ⟨n, hn, Or.inl ⟨hx, hw.1 hq⟩⟩
    · obtain ⟨n, hn, hx⟩ := (er f).1 hm
      exact ⟨n, hn, Or.inr ⟨hx, (rar_wanted (hq2 f hm)).1 hq⟩⟩
  · rintro ⟨n, hn, ⟨hx, hw⟩ | ⟨hx, hw⟩⟩
    · have hm := ei.2 ⟨n, hn, hx⟩
      obtain ⟨b, hb, hw'⟩ := image_wanted h more hc
      have := (hq1 f hm).symm.trans hb
      cases this
      exact Or.inl ⟨hm, hw'.2 hw⟩
    · have hm := (er f).2 ⟨n, hn, hx⟩
      exact Or.inr ⟨hm, (rar_wanted (hq2 f hm)).2 hw⟩

/-- No proof file is given twice. -/
theorem proofs_once {w : FindWorld} (h : FindOk w) (more : Bool) {l : List Str} (hl : proofFiles w more = .ok l) : l.Nodup := by
  unfold proofFiles at hl
  obtain ⟨imgs, h1, hl⟩ := bind_eq_ok.1 hl
  obtain ⟨rars, h2, hl⟩ := bind_eq_ok.1 hl
  cases hl
  obtain ⟨q1, hq1, rfl⟩ := filterRes_ok h1
  obtain ⟨q2, hq2, rfl⟩ := filterRes_ok h2
  rw [List.nodup_append]
  refine ⟨List.filter_sublist.nodup (images_nodup h), List.filter_sublist.nodup (files_found h (ext_lower h ".rar" (by simp))).2, ?_⟩
  intro a ha b hb e
  subst e
  rw [List.mem_filter] at ha hb
  obtain ⟨e, he, hf⟩ := List.mem_flatMap.1 ha.1
  have := one_ext h (by simp [he]) (by simp) hf hb.1
  subst this
  revert he
  decide

theorem imageWanted_ok (w : FindWorld) (more : Bool) (img : Str) : ∃ b, imageWanted w more img = .ok b := by
  unfold imageWanted storeRoot
  split
  · exact ⟨_, rfl⟩
  · split
    · exact ⟨_, rfl⟩
    · split
      · exact ⟨_, rfl⟩
      · split
        · exact ⟨_, rfl⟩
        · split
          · split
            · obtain ⟨c, hc⟩ := site_cover_ends w.std (w.data img)
              rw [hc]
              exact ⟨_, rfl⟩
            · exact ⟨_, rfl⟩
          · exact ⟨_, rfl⟩

/-- Proof files are found unless an archive with `proof` in its path fails with another error than `ValueError` before an image is
seen; then nothing is made of the release. -/
theorem proofs_end {w : FindWorld} (more : Bool) : (∃ l, proofFiles w more = .ok l) ↔ ReadableProofs w := by
  have himg : ∃ l, filterRes (imageWanted w more) (proofExts.flatMap w.files) = .ok l := by
    refine ⟨_, filterRes_of (q := fun x => okTrue (imageWanted w more x)) ?_⟩
    intro x _
    obtain ⟨b, hb⟩ := imageWanted_ok w more x
    rw [hb]; rfl
  obtain ⟨li, hi⟩ := himg
  have key : ∀ rar, (∃ b, rarWanted w rar = .ok b) ↔ (PathSays w.lower "proof" rar → (w.archive rar).2 = none ∨ (w.archive rar).2 = some .valueError ∨ ProofRar w rar) := by
    intro rar
    unfold rarWanted
    by_cases h1 : PathSays w.lower "proof" rar
    · rw [if_pos ((isIn_iff _ _).2 h1)]
      unfold imageStored
      by_cases h2 : (w.archive rar).1.any (imageName w.lower) = true
      · rw [if_pos h2]
        exact ⟨fun _ _ => Or.inr (Or.inr ⟨h1, (stored_any w rar).1 h2⟩), fun _ => ⟨_, rfl⟩⟩
      · rw [if_neg h2]
        have hno : ¬ ProofRar w rar := fun hh => h2 ((stored_any w rar).2 hh.2)
        simp only [h1, true_implies, hno, or_false]
        split
        · rename_i e; simp [e]
        · rename_i e; simp [e]
        · rename_i e hne h3
          simp only [h3]
          constructor
          · rintro ⟨b, hb⟩; cases hb
          · rintro (hh | hh)
            · cases hh
            · cases hh; exact absurd rfl hne
    · rw [if_neg (fun hh => h1 ((isIn_iff _ _).1 hh))]
      exact ⟨fun _ hh => absurd hh h1, fun _ => ⟨_, rfl⟩⟩
  constructor
  · rintro ⟨l, hl⟩ rar hr
    unfold proofFiles at hl
    obtain ⟨imgs, h1, hl⟩ := bind_eq_ok.1 hl
    obtain ⟨rars, h2, hl⟩ := bind_eq_ok.1 hl
    obtain ⟨q2, hq2, rfl⟩ := filterRes_ok h2
    exact (key rar).1 ⟨_, hq2 rar hr⟩
  · intro h
    refine ⟨li ++ (w.files ".rar").filter fun x => okTrue (rarWanted w x), ?_⟩
    unfold proofFiles
    rw [hi, ok_bind, filterRes_of (q := fun x => okTrue (rarWanted w x)) ?_]
    · rfl
    · intro x hx
      obtain ⟨b, hb⟩ := (key x).2 (h x hx)
      rw [hb]; rfl

/-! ### Examples -/

/-- A release with a sample, a proof in an archive, a music video listed by the SFV file, and covers. -/
def exTree : Tree :=
  .mk [str "grp-rel.sfv", str "clip.mkv", str "main.mkv", str "grp-rel.jpg", str "Grp-Rel.png", str "other.jpg", str "Folder.jpg"]
    (.cons (str "Sample") (.mk [str "x.avi"] .nil)
      (.cons (str "Proof") (.mk [str "a.rar", str "b.rar", str "p.jpeg"] .nil) .nil))

def exWorld89 (root : String) (exts : List Str) : FindWorld where
  root := str root
  tree := exTree
  lower := lowerStr
  isThere := fun p => exts.contains p
  listed := fun p => if p = str root ++ str "/grp-rel.sfv" then [str "clip.mkv"] else []
  size := fun _ => 200000
  data := fun _ => exDqt.bytes
  archive := fun p => if p = str root ++ str "/Proof/a.rar" then ([str "readme.txt", str "p.JPG"], none) else ([str "movie.mkv"], some .valueError)
  std := exStd

theorem exWorld89_ok : FindOk (exWorld89 "/data/Grp-Rel" []) where
  root := by unfold RootOk; decide +kernel
  names := namesOk_check (by decide +kernel)
  files := filesOk_check (by decide +kernel)
  lower := keepsLower_ascii

set_option maxRecDepth 100000 in
example : sampleFiles (exWorld89 "/data/Grp-Rel" []) = [str "/data/Grp-Rel/Sample/x.avi", str "/data/Grp-Rel/clip.mkv"] := by decide +kernel

set_option maxRecDepth 100000 in
example : NoCapitals (exWorld89 "/data/grp-rel" []) false (str "/data/grp-rel/grp-rel.jpg") := by
  refine Or.inl fun x hx => keepsLower_ascii x ?_
  intro c hc
  have : ∀ c ∈ str "/data/grp-rel/grp-rel.jpg", c < 128 ∧ ¬ (0x41 ≤ c ∧ c ≤ 0x5A) := by decide +kernel
  obtain ⟨a, b, e⟩ := hx
  exact this c (by rw [← e]; simp [hc])

/-- The wanted images: the proof and the archive with one, and the cover named like the SFV file. -/
example : ReadableProofs (exWorld89 "/data/Grp-Rel" []) := by
  intro rar hr _
  have : (exWorld89 "/data/Grp-Rel" []).files ".rar" = [str "/data/Grp-Rel/Proof/a.rar", str "/data/Grp-Rel/Proof/b.rar"] := by decide +kernel
  rw [this] at hr
  simp only [List.mem_cons, List.not_mem_nil, or_false] at hr
  rcases hr with rfl | rfl
  · exact Or.inl (by decide +kernel)
  · exact Or.inr (Or.inl (by decide +kernel))

set_option maxRecDepth 100000 in
/-- The same cover with capitals in its name is not taken, although it is named like the SFV file up to case. -/
theorem capitals_missed : ∃ l, proofFiles (exWorld89 "/data/grp-rel" []) false = .ok l ∧
    str "/data/grp-rel/grp-rel.jpg" ∈ l ∧ str "/data/grp-rel/Grp-Rel.png" ∉ l ∧
    WantedImage (exWorld89 "/data/grp-rel" []) false (str "/data/grp-rel/Grp-Rel.png") := by
  have hl : proofFiles (exWorld89 "/data/grp-rel" []) false =
      .ok [str "/data/grp-rel/grp-rel.jpg", str "/data/grp-rel/Proof/p.jpeg", str "/data/grp-rel/Proof/a.rar"] := by decide +kernel
  refine ⟨_, hl, by decide +kernel, by decide +kernel, Or.inr ⟨?_, Or.inr (Or.inr (Or.inr ⟨by decide +kernel, ?_, by decide +kernel⟩))⟩⟩
  · rw [← alwaysSkip_iff]; decide +kernel
  · refine ⟨str "grp-rel", ⟨str "/data/grp-rel/grp-rel.sfv", str "grp-rel.sfv", ⟨[], exTree, rfl, by decide +kernel, by decide +kernel⟩, ⟨".sfv", by simp, ?_⟩, by decide +kernel⟩, ?_⟩
    · exact List.isSuffixOf_iff_suffix.1 (by decide +kernel)
    · refine Or.inr (Or.inr ⟨str "rel", str "/data/grp-rel/Grp-Rel", (lastPart_iff _ _).2 (by decide +kernel), (stem_iff _ _).2 (by decide +kernel), (lastPart_iff _ _).2 (by decide +kernel)⟩)

set_option maxRecDepth 100000 in
/-- In a folder with `sample` in its name the main video is a sample, and every image is a proof. -/
theorem parent_words : str "/my samples/r/main.mkv" ∈ sampleFiles (exWorld89 "/my samples/r" []) ∧
    ∃ l, proofFiles (exWorld89 "/my samples/r" []) false = .ok l ∧ str "/my samples/r/Folder.jpg" ∈ l := by
  refine ⟨by decide +kernel, _, rfl, ?_⟩
  decide +kernel

/-- A music video with the extension `.ts` is not found by the SFV file of the same name: four characters are cut off. -/
theorem ts_missed : ∃ w : FindWorld, FindOk w ∧ w.tree = .mk [str "clip.ts", str "clip.sfv"] .nil ∧ w.isThere (str "/r/clip.sfv") = true ∧
    (∀ p, w.isThere p = true → p = str "/r/clip.sfv" ∨ p = str "/r/clip.ts") ∧ w.root = str "/r" ∧ sampleFiles w = [] := by
  refine ⟨{ exWorld89 "/r" [str "/r/clip.sfv", str "/r/clip.ts"] with tree := .mk [str "clip.ts", str "clip.sfv"] .nil, listed := fun _ => [] }, ?_, rfl, by decide +kernel, ?_, rfl, by decide +kernel⟩
  · exact ⟨by unfold RootOk; decide +kernel, namesOk_check (by decide +kernel), filesOk_check (by decide +kernel), keepsLower_ascii⟩
  · intro p hp
    have hp' : [str "/r/clip.sfv", str "/r/clip.ts"].contains p = true := hp
    simpa using hp'

end Rescene.Props
