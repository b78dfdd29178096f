import Verif.Model.Questions
import Verif.Spec.Questions
import Verif.Props.SrrCommand
import Verif.Props.SrsFiles
/-
C118: files are replaced and folders made only with leave.
-/
namespace Rescene.Props
open Rescene Rescene.Spec

theorem ask_yes {lower : Str → Str} {answers : List Str} : askOverwrite lower answers = .ok true ↔ SaysYes lower answers := by
  rw [ask_iff]
  simp [SaysYes, FirstIs]

theorem ask_no {lower : Str → Str} {answers : List Str} : askOverwrite lower answers = .ok false ↔ SaysNo lower answers := by
  rw [ask_iff]
  simp [SaysNo, FirstIs, and_comm]

/-- C118: srs replaces a sample or SRS only with -y or when the first answer that is a yes or a no is a yes. -/
theorem srs_asks {lower : Str → Str} {fs : FS} {p : Path} {yes : Bool} {answers : List Str} :
    srsAsk lower fs p yes answers = .ok true ↔ MayReplace lower fs p yes false answers := by
  unfold srsAsk MayReplace
  cases hf : fs p <;> cases yes <;> simp [ask_yes]

/-- C118: pyrescene.py replaces an SRR only with -y, or without -n when the first answer that is a yes or a no is a yes.  (Both
options together are refused, `auto_both`.) -/
theorem auto_asks {lower : Str → Str} {fs : FS} {p : Path} {yes no : Bool} {answers : List Str} (h : ¬ (yes = true ∧ no = true)) :
    autoAsk lower fs p yes no answers = .ok true ↔ MayReplace lower fs p yes no answers := by
  unfold autoAsk MayReplace
  cases hf : fs p <;> cases yes <;> cases no <;> simp_all [ask_yes]

/-- C118: pyrescene.py stops with status 1 when both -y and -n are given. -/
theorem auto_both {lower : Str → Str} {fs : FS} {isDir : Path → Bool} {p : Path} {answers : List Str} :
    autoFolder lower fs isDir p true true answers = .ok .stopped := rfl

/-- C118: retag.py replaces a file by one from the SRR only with -y and not -n, or without both when the first answer that is a
yes or a no is a yes. -/
theorem tag_asks {lower : Str → Str} {fs : FS} {p : Path} {yes no : Bool} {answers : List Str} :
    tagAsk lower fs p yes no answers = .ok true ↔ MayReplace lower fs p yes no answers := by
  unfold tagAsk MayReplace
  cases hf : fs p <;> cases yes <;> cases no <;> simp [ask_yes]

/-- C118: for the tracks themselves this holds without -n only. -/
theorem tag_track_asks_partial {lower : Str → Str} {fs : FS} {p : Path} {yes : Bool} {answers : List Str} :
    tagTrackAsk lower fs p yes false answers = .ok true ↔ MayReplace lower fs p yes false answers := srs_asks

/-- C118 is false of retag.py: with -n the user is asked about a track that is there all the same, and it is replaced after a yes;
with -y as well it is replaced without a question. -/
theorem tag_no_forgotten {lower : Str → Str} {fs : FS} {p : Path} {answers : List Str} (hf : (fs p).isSome) :
    (tagTrackAsk lower fs p false true answers = .ok true ↔ SaysYes lower answers) ∧
    tagTrackAsk lower fs p true true answers = .ok true ∧ ∀ yes, ¬ MayReplace lower fs p yes true answers := by
  refine ⟨?_, ?_, ?_⟩
  · simp [tagTrackAsk, srsAsk, hf, ask_yes]
  · simp [tagTrackAsk, srsAsk]
  · intro yes h
    rcases h with h | h
    · simp [h] at hf
    · simp at h

/-- C118: when the user says no to replacing the sample, srs touches no file, whatever fails. -/
theorem srs_no_kept {lower : Str → Str} {j : SrsJob} {fs : FS} {answers : List Str} {ok : Bool}
    (hf : (fs (j.loc j.result)).isSome) (hno : SaysNo lower answers)
    (hask : srsAsk lower (fun p => fs (j.loc p)) j.result false answers = .ok ok) (faults : List Fault) :
    run (srsFiles { j with allowed := ok }) fs faults = (fs, .error .other) ∧
    ∀ m may, Moment may (srsFiles { j with allowed := ok }) fs m → m = fs := by
  have h : ok = false := by
    unfold srsAsk at hask
    rw [if_pos ⟨rfl, hf⟩, ask_no.2 hno] at hask
    exact (Except.ok.inj hask).symm
  subst h
  exact srs_refused rfl

/-- C118 is false of pyrescene.py: a folder for the output that does not exist is made without a question, also with -n. -/
theorem folder_unasked {lower : Str → Str} {fs : FS} {isDir : Path → Bool} {p : Path} {yes no : Bool} {answers : List Str}
    (hd : isDir p = false) (hf : fs p = none) (h : ¬ (yes = true ∧ no = true)) :
    autoFolder lower fs isDir p yes no answers = .ok .made := by
  unfold autoFolder canCreate
  rw [if_neg h, if_pos ⟨hd, by simp [hf]⟩, if_neg (by simp [hf])]

/-- C118: what is there already, a folder or a file, is left as it is. -/
theorem folder_there {lower : Str → Str} {fs : FS} {isDir : Path → Bool} {p : Path} {yes no : Bool} {answers : List Str}
    (hd : isDir p = true ∨ (fs p).isSome) (h : ¬ (yes = true ∧ no = true)) :
    autoFolder lower fs isDir p yes no answers = .ok .there := by
  unfold autoFolder
  rw [if_neg h, if_neg]
  rintro ⟨h1, h2⟩
  rcases hd with hd | hd
  · rw [hd] at h1; cases h1
  · rw [hd] at h2; cases h2

/-- C118: every tool goes on asking until there is a yes or a no. -/
theorem asks_until {lower : Str → Str} {fs : FS} {p : Path} {answers : List Str} (hf : (fs p).isSome) :
    ((∃ b, srsAsk lower fs p false answers = .ok b) ↔ ∃ a ∈ answers, lower a = str "y" ∨ lower a = str "n") ∧
    autoAsk lower fs p false false answers = srsAsk lower fs p false answers ∧
    tagAsk lower fs p false false answers = srsAsk lower fs p false answers ∧
    canOverwrite lower fs p false false answers = srsAsk lower fs p false answers := by
  refine ⟨?_, by simp [autoAsk, srsAsk], by simp [tagAsk, srsAsk, hf], by simp [canOverwrite, srsAsk, hf]⟩
  simp only [srsAsk, hf, and_self, if_true]
  induction answers with
  | nil => simp [askOverwrite]
  | cons a l ih =>
    unfold askOverwrite
    by_cases hy : lower a = str "y"
    · simp [hy]
    · by_cases hn : lower a = str "n"
      · simp [hn, show str "n" ≠ str "y" by decide]
      · simp only [hy, hn, if_false, List.mem_cons, exists_eq_or_imp, false_or, or_self]
        exact ih

example : SaysYes id [str "yes", str "", str "y", str "n"] ∧ SaysNo id [str "no", str "n", str "y"] ∧
    srsAsk id (fun _ => some []) (str "a.avi") false [str "yes", str "", str "y", str "n"] = .ok true ∧
    autoAsk id (fun _ => some []) (str "a.srr") false true [str "y"] = .ok false ∧
    tagTrackAsk id (fun _ => some []) (str "a.mp3") false true [str "y"] = .ok true ∧
    autoFolder id (fun _ => none) (fun _ => false) (str "/out") false true [str "n"] = .ok .made := by
  refine ⟨⟨[str "yes", str ""], str "y", [str "n"], rfl, by decide, rfl⟩, ⟨[str "no"], str "n", [str "y"], rfl, by decide, rfl⟩,
    by decide, by decide, by decide, by decide⟩

end Rescene.Props
