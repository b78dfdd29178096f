import Verif.Model.SharedList
import Verif.Props.CreateFromExample
/-
C119: a list of files to store can be used for several SRR files.
-/
namespace Rescene.Props
open Rescene Rescene.Spec

/-- The SFV files of the input. -/
def CreateCall.sfvs (w : World) (c : CreateCall) : List Path := c.infiles.filter fun f => w.lower (f.drop (f.length - 4)) == str ".sfv"

/-- C119: when the calls have no SFV files in their input, or do nothing, every SRR is the one that the call gives with the list as
it was written, and the list is as it was. -/
theorem shared_list_kept_partial {w : World} {fuel : Nat} {store : List Path} {calls : List CreateCall}
    (h : ∀ c ∈ calls, c.allowed = true → ∀ f ∈ c.infiles, w.lower (f.drop (f.length - 4)) ≠ str ".sfv") :
    createCalls w fuel store calls =
      (calls.map fun c => if c.allowed then
          some (createFrom w fuel c.disk c.app c.infiles c.folder store c.savePaths c.compressed c.oso) else none, store) := by
  induction calls with
  | nil => rfl
  | cons c cs ih =>
    have hl : c.listAfter w store = store := by
      unfold CreateCall.listAfter
      split
      · rename_i ha
        split
        · have : c.infiles.filter (fun f => w.lower (f.drop (f.length - 4)) == str ".sfv") = [] := by
            rw [List.filter_eq_nil_iff]
            intro f hf
            have := h c (by simp) ha f hf
            simpa using this
          unfold storeList
          rw [this, List.append_nil]
        · rfl
      · rfl
    unfold createCalls
    rw [hl, ih fun c hc => h c (by simp [hc])]
    rfl

/-- C119: what becomes of the list otherwise: the SFV files of all calls so far are behind it. -/
theorem shared_list_after {w : World} {fuel : Nat} {store : List Path} {calls : List CreateCall}
    (h : ∀ c ∈ calls, ∃ hd, mkSrrHeader c.app = .ok hd) :
    (createCalls w fuel store calls).2 = store ++ calls.flatMap fun c => if c.allowed then CreateCall.sfvs w c else [] := by
  induction calls generalizing store with
  | nil => simp [createCalls]
  | cons c cs ih =>
    obtain ⟨hd, hh⟩ := h c (by simp)
    unfold createCalls
    dsimp only
    rw [ih fun c hc => h c (by simp [hc]), List.flatMap_cons, ← List.append_assoc]
    congr 1
    unfold CreateCall.listAfter CreateCall.sfvs storeList
    rw [hh]
    split <;> simp

/-- C119 is false: an SFV that is the input of a call is stored in the SRR of the next call with the same list as well, though that
call knows nothing of it. -/
theorem shared_list_leaks {w : World} (hw : WorldOk w) {fuel : Nat} {store : List Path} {c d : CreateCall} {sfv : Path} {hd : Bytes}
    (ha : c.allowed = true) (hh : mkSrrHeader c.app = .ok hd) (hb : d.allowed = true) (hp : d.savePaths = false)
    (hm : sfv ∈ c.infiles) (hext : w.lower (sfv.drop (sfv.length - 4)) = str ".sfv") (habs : sfv.head? = some 0x2F)
    (hf : (d.disk sfv).isSome = true) (hall : sfv ∈ w.all) :
    ∃ list, (createCalls w fuel store [c, d]).1 = [some (c.srr w fuel store), some (d.srr w fuel list)] ∧
      ∃ l, storedInput w d.disk d.savePaths d.folder d.infiles list = .ok l ∧ (basename sfv, sfv) ∈ l := by
  refine ⟨store ++ CreateCall.sfvs w c, ?_, _, by rw [hp]; exact stored_exact hw _ _ _ _, ?_⟩
  · simp [createCalls, CreateCall.listAfter, ha, hb, hh, CreateCall.sfvs, storeList]
  · rw [List.mem_map]
    refine ⟨sfv, ?_, rfl⟩
    rw [List.mem_flatMap]
    have hpl : placeOf d.folder sfv = sfv := by
      unfold placeOf
      rw [if_pos (Or.inl habs)]
    refine ⟨sfv, ?_, by rw [hpl, if_pos ⟨hall, hf⟩]; simp⟩
    rw [List.mem_append, List.mem_append]
    exact Or.inl (Or.inr (by unfold CreateCall.sfvs; rw [List.mem_filter]; exact ⟨hm, by simp [hext]⟩))

/-- Creating the SRR of the set in CreateFromExample. -/
def inCall : CreateCall := ⟨inDisk, str "app", [str "/in/a.sfv"], str "/in", false, false, false, true⟩

set_option maxRecDepth 100000 in
/-- C119 is false: the same call twice, with the same list, gives two different SRR files.  The second one has the SFV twice. -/
theorem shared_list_twice : ∃ srr1 srr2, (createCalls inWorld 9 [str "a.nfo"] [inCall, inCall]).1 = [some (.ok srr1), some (.ok srr2)] ∧
    srr1 ≠ srr2 ∧ storedInput inWorld inDisk false (str "/in") [str "/in/a.sfv"] [str "a.nfo", str "/in/a.sfv"] =
      .ok [(str "a.nfo", str "/in/a.nfo"), (str "a.sfv", str "/in/a.sfv"), (str "a.sfv", str "/in/a.sfv")] := by
  have e : ∀ r : Res Bytes, r.isOk = true → ∃ b, r = .ok b := by
    intro r h
    cases r with
    | ok b => exact ⟨b, rfl⟩
    | error e => cases h
  obtain ⟨s1, h1⟩ := e (createFrom inWorld 9 inDisk (str "app") [str "/in/a.sfv"] (str "/in") [str "a.nfo"] false false false) (by decide +kernel)
  obtain ⟨s2, h2⟩ := e (createFrom inWorld 9 inDisk (str "app") [str "/in/a.sfv"] (str "/in") [str "a.nfo", str "/in/a.sfv"] false false false)
    (by decide +kernel)
  refine ⟨s1, s2, ?_, ?_, ?_⟩
  · have hl : inCall.listAfter inWorld [str "a.nfo"] = [str "a.nfo", str "/in/a.sfv"] := by decide +kernel
    unfold createCalls createCalls
    rw [hl]
    show [some (createFrom inWorld 9 inDisk (str "app") [str "/in/a.sfv"] (str "/in") [str "a.nfo"] false false false),
      some (createFrom inWorld 9 inDisk (str "app") [str "/in/a.sfv"] (str "/in") [str "a.nfo", str "/in/a.sfv"] false false false)] = _
    rw [h1, h2]
  · intro h
    have : createFrom inWorld 9 inDisk (str "app") [str "/in/a.sfv"] (str "/in") [str "a.nfo"] false false false ≠
        createFrom inWorld 9 inDisk (str "app") [str "/in/a.sfv"] (str "/in") [str "a.nfo", str "/in/a.sfv"] false false false := by
      decide +kernel
    exact this (by rw [h1, h2, h])
  · rw [stored_exact inWorld_ok]
    decide +kernel

/-- The hypotheses of `shared_list_kept_partial` and `shared_list_leaks` hold: the set from its first volume twice, and from its
first volume after the SFV. -/
example : (∀ c ∈ [{ inCall with infiles := [str "/in/a.rar"] }, { inCall with infiles := [str "/in/a.rar"] }], c.allowed = true →
      ∀ f ∈ c.infiles, inWorld.lower (f.drop (f.length - 4)) ≠ str ".sfv") ∧
    ∃ list, (createCalls inWorld 9 [str "a.nfo"] [inCall, { inCall with infiles := [str "/in/a.rar"] }]).1 =
        [some (inCall.srr inWorld 9 [str "a.nfo"]), some (CreateCall.srr inWorld 9 { inCall with infiles := [str "/in/a.rar"] } list)] ∧
      ∃ l, storedInput inWorld inDisk false (str "/in") [str "/in/a.rar"] list = .ok l ∧ (str "a.sfv", str "/in/a.sfv") ∈ l := by
  refine ⟨by simp only [List.mem_cons, List.not_mem_nil, or_false, or_self]; rintro c rfl _ f hf
             simp only [List.mem_cons, List.not_mem_nil, or_false] at hf
             subst hf
             decide +kernel, ?_⟩
  cases hh : mkSrrHeader (str "app") with
  | error e =>
    have : (mkSrrHeader (str "app")).isOk = true := by decide +kernel
    rw [hh] at this
    cases this
  | ok hd =>
    exact shared_list_leaks inWorld_ok (c := inCall) (d := { inCall with infiles := [str "/in/a.rar"] }) (sfv := str "/in/a.sfv")
      rfl hh rfl rfl (by simp [inCall]) (by decide +kernel) (by decide) (by decide +kernel) (by decide +kernel)

end Rescene.Props
