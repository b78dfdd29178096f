import Verif.Lemmas.Relpath
import Verif.Props.Paths
/-
C71: the names of volumes and stored files in an SRR when paths are saved.
-/
namespace Rescene.Props
open Rescene Spec

/-- The working directory. -/
def here (w : World) : List Str := place [] w.cwd

theorem srrName_saved (w : World) (hcwd : w.cwd.head? = some 0x2F) (folder : Str) (p : Path) (hp : p ≠ []) :
    srrName w true folder p = .ok (if relElems (place (here w) folder) (place (here w) p) = [] then [0x2E]
      else joinWith 0x2F (relElems (place (here w) folder) (place (here w) p))) := by
  rw [srrName, if_pos rfl, relpath_eq hcwd hp]
  rfl

/-- C71: without paths, a name is the last element of the path. -/
theorem plain_name (w : World) (folder : Str) (p : Path) : srrName w false folder p = .ok (basename p) := rfl

/-- C71: with paths, the name leads from the folder to the file, whatever the paths look like. -/
theorem saved_name_leads (w : World) (hcwd : w.cwd.head? = some 0x2F) (folder : Str) (p : Path) (hp : p ≠ []) :
    ∃ name, srrName w true folder p = .ok name ∧ place (place (here w) folder) name = place (here w) p := by
  refine ⟨_, srrName_saved w hcwd folder p hp, ?_⟩
  have hpl : ∀ e ∈ place (here w) p, PlainElem e := place_plain (place_plain (by simp) _) _
  have hw := walk_rel (s := place (here w) folder) hpl
  have hns := relElems_no_slash (s := place (here w) folder) hpl
  generalize relElems (place (here w) folder) (place (here w) p) = r at *
  split
  · rename_i h
    rw [h] at hw
    rw [← hw]
    simp [place, splitOn, walk]
  · rename_i h
    cases r with
    | nil => exact absurd rfl h
    | cons a r =>
      have hh : (joinWith 0x2F (a :: r)).head? ≠ some 0x2F := by
        rw [joinWith_head (hns a (by simp)).2]
        exact head_ne_of_not_mem (hns a (by simp)).1
      unfold place
      rw [if_neg hh, splitOn_joinWith (by simp) (fun e he => (hns e he).1)]
      exact hw

/-- C71: a file below the folder is put at the same place below the output folder when it is extracted
with its path. -/
theorem saved_name_below (w : World) (hcwd : w.cwd.head? = some 0x2F) (folder : Str) (p : Path) (hp : p ≠ []) {rel : List Str}
    (hrel : rel ≠ []) (hbelow : place (here w) p = place (here w) folder ++ rel) (hback : ∀ e ∈ rel, 0x5C ∉ e) (out : Str) :
    ∃ name q, srrName w true folder p = .ok name ∧ opath name true out = .ok q ∧
      ∀ cwd, place cwd q = place cwd out ++ rel := by
  have hpl : ∀ e ∈ place (here w) p, PlainElem e := place_plain (place_plain (by simp) _) _
  have hr : relElems (place (here w) folder) (place (here w) p) = rel := by
    unfold relElems
    rw [(commonLength_prefix _ _).2 ⟨rel, hbelow.symm⟩, hbelow]
    simp
  have hrp : ∀ e ∈ rel, PlainElem e := fun e he => hpl e (by rw [hbelow]; simp [he])
  have hname : srrName w true folder p = .ok (joinWith 0x2F rel) := by
    rw [srrName_saved w hcwd folder p hp, hr, if_neg hrel]
  have hb : backToSlash (joinWith 0x2F rel) = joinWith 0x2F rel := by
    have : 0x5C ∉ joinWith 0x2F rel := by
      clear hname hr hbelow hrel hrp
      induction rel with
      | nil => simp [joinWith]
      | cons a r ih =>
        have ih := ih (fun e he => hback e (by simp [he]))
        cases r with
        | nil => simpa [joinWith] using hback
        | cons b r =>
          simp only [joinWith, List.mem_append, List.mem_cons, not_or]
          exact ⟨hback a (by simp), by decide, ih⟩
    unfold backToSlash
    rw [List.map_congr_left (g := id)]
    · simp
    · intro c hc
      rw [if_neg]
      · rfl
      · rintro rfl; exact this hc
  have hn : nameComponents (joinWith 0x2F rel) = rel := by
    unfold nameComponents
    rw [hb, splitOn_joinWith hrel (fun e he => (hrp e he).2.2.2)]
  obtain ⟨q, hq⟩ := (extraction_name_accepted_iff (joinWith 0x2F rel) true out).1.2 (by rw [hn]; exact hrp)
  refine ⟨_, q, hname, hq, fun cwd => ?_⟩
  obtain ⟨rel', _, _, h3, h4, _⟩ := extraction_stays_below hq cwd
  rw [h3, h4 rfl, hn]

/-- C71, disagreement: a file that is not below the folder gets a name that can never be extracted.  The
program means to store such a file without a path (main.py:1583), but compares text with bytes. -/
theorem saved_name_outside (w : World) (hcwd : w.cwd.head? = some 0x2F) (folder : Str) (p : Path) (hp : p ≠ [])
    (hout : ¬ place (here w) folder <+: place (here w) p) :
    ∃ name, srrName w true folder p = .ok name ∧ ∀ ep out, opath name ep out = .error .valueError := by
  have hpl : ∀ e ∈ place (here w) p, PlainElem e := place_plain (place_plain (by simp) _) _
  have hc := commonLength_spec (place (here w) folder) (place (here w) p)
  have hne : commonLength (place (here w) folder) (place (here w) p) ≠ (place (here w) folder).length :=
    fun h => hout ((commonLength_prefix _ _).1 h)
  obtain ⟨r, hr⟩ : ∃ r, relElems (place (here w) folder) (place (here w) p) = [0x2E, 0x2E] :: r := by
    unfold relElems
    obtain ⟨k, hk⟩ : ∃ k, (place (here w) folder).length - commonLength (place (here w) folder) (place (here w) p) = k + 1 :=
      ⟨(place (here w) folder).length - commonLength (place (here w) folder) (place (here w) p) - 1, by omega⟩
    rw [hk, List.replicate_succ]
    exact ⟨_, rfl⟩
  refine ⟨joinWith 0x2F ([0x2E, 0x2E] :: r), ?_, fun ep out => ?_⟩
  · rw [srrName_saved w hcwd folder p hp, hr, if_neg (by simp)]
  · apply (extraction_name_accepted_iff _ ep out).2
    refine ⟨[0x2E, 0x2E], ?_, by simp [PlainElem]⟩
    unfold nameComponents
    have : ∃ t, backToSlash (joinWith 0x2F ([0x2E, 0x2E] :: r)) = [0x2E, 0x2E] ++ t ∧ (t = [] ∨ ∃ u, t = 0x2F :: u) := by
      cases r with
      | nil => exact ⟨[], by simp [joinWith, backToSlash], Or.inl rfl⟩
      | cons a r => exact ⟨0x2F :: backToSlash (joinWith 0x2F (a :: r)), by simp [joinWith, backToSlash], Or.inr ⟨_, rfl⟩⟩
    obtain ⟨t, ht, rfl | ⟨u, rfl⟩⟩ := this
    · rw [ht]; simp [splitOn]
    · rw [ht, splitOn_append]
      simp [splitOn]

example : relpath (str "/home") (str "/home/rel/Sample/a.srs") (str "rel") = .ok (str "Sample/a.srs") := by decide
example : relpath (str "/home") (str "x/../rel//a.srs") (str "./rel/") = .ok (str "a.srs") := by decide
example : relpath (str "/home") (str "a.nfo") (str "rel") = .ok (str "../a.nfo") := by decide
example : opath (str "../a.nfo") true (str "out") = .error .valueError := by decide

end Rescene.Props
