import Verif.Spec.Names
import Verif.Model.Blocks
import Verif.Lemmas.Str
namespace Rescene
open Spec

theorem utf8EncCp_some {c : Nat} : (∃ b, utf8EncCp c = some b) ↔ c < 0xD800 ∨ (0xE000 ≤ c ∧ c < 0x110000) := by
  unfold utf8EncCp
  repeat' split
  all_goals simp
  all_goals omega

theorem utf8EncCp_length {c : Nat} {b : Bytes} (h : utf8EncCp c = some b) : b.length = cpLen c := by
  unfold utf8EncCp at h
  unfold cpLen
  repeat' split at h
  all_goals first | (simp at h; done) | (simp only [Option.some.injEq] at h; subst h; simp [*]; done) | (simp only [Option.some.injEq] at h; subst h; simp; split <;> (try split) <;> (try split) <;> omega)

/-- Encoding succeeds exactly on encodable strings. -/
theorem utf8Enc_ok_iff {s : Str} : (∃ b, utf8Enc s = .ok b) ↔ Encodable s := by
  induction s with
  | nil => simp [utf8Enc, Encodable]
  | cons c s ih =>
    unfold utf8Enc
    have hc := @utf8EncCp_some c
    have he : Encodable (c :: s) ↔ (c < 0xD800 ∨ (0xE000 ≤ c ∧ c < 0x110000)) ∧ Encodable s := by
      simp [Encodable]
    rw [he, ← hc, ← ih]
    cases h : utf8EncCp c with
    | none => simp
    | some x =>
      simp only [bind_eq_ok]
      constructor
      · rintro ⟨b, t, ht, _⟩; exact ⟨⟨_, rfl⟩, t, ht⟩
      · rintro ⟨_, t, ht⟩; exact ⟨_, t, ht, rfl⟩

theorem utf8Enc_length {s : Str} {b : Bytes} (h : utf8Enc s = .ok b) : b.length = utf8Len s := by
  induction s generalizing b with
  | nil => simp [utf8Enc] at h; subst h; rfl
  | cons c s ih =>
    unfold utf8Enc at h
    split at h
    · simp at h
    · rename_i x hx
      rw [bind_eq_ok] at h
      obtain ⟨t, ht, h⟩ := h
      simp at h; subst h
      simp [utf8Len, ih ht, utf8EncCp_length hx]

theorem isGoodSrr_iff {s : Str} : isGoodSrr s = true ↔ ∀ c ∈ s, ¬ BadChar c := by
  unfold isGoodSrr
  simp only [List.all_cons, List.all_nil, Bool.and_true, Bool.and_eq_true, Bool.not_eq_true',
    List.contains_eq_mem, decide_eq_false_iff_not]
  constructor
  · rintro ⟨h1, h2, h3, h4, h5, h6, h7, h8⟩ c hc hb
    rcases hb with rfl | rfl | rfl | rfl | rfl | rfl | rfl | rfl <;> contradiction
  · intro h
    refine ⟨?_, ?_, ?_, ?_, ?_, ?_, ?_, ?_⟩ <;> intro hm <;> refine h _ hm ?_ <;> simp [BadChar]

end Rescene
