import Verif.Model.SrsData
import Verif.Lemmas.Bytes
import Verif.Lemmas.Str
import Verif.Lemmas.Names
/-
C33, C34: the sample description and the track description of an SRS file.
-/
namespace Rescene.Props
open Spec

theorem slice_mid {pre mid post : Bytes} {a b : Nat} (ha : pre.length = a) (hb : a + mid.length = b) :
    slice (pre ++ (mid ++ post)) a b = mid := by
  subst ha hb; simp [slice, List.take_append]

/-! ### C33 -/

/-- C33: the description is written iff the base name can be encoded in at most 65535
bytes, and flags and size fit; it is then read back, whatever follows it: same flags, the
base name of the file, same size, the CRC as an unsigned 32 bit number, and the name of the
application that wrote it. -/
theorem file_data_round_trip {app : Str} {flags : Nat} {name : Str} {size crc : Nat} {b : Bytes}
    (h : fileSerialize app flags name size crc = .ok b) (post : Bytes) :
    fileParse (b ++ post) = .ok ⟨flags, app, basename name, size, crc % 2 ^ 32⟩ := by
  unfold fileSerialize at h
  simp only [bind_eq_ok, pack_eq_ok] at h
  obtain ⟨a, ha, n, hn, _, ⟨h0, rfl⟩, _, ⟨h1, rfl⟩, _, ⟨h2, rfl⟩, _, ⟨h3, rfl⟩, _, ⟨h4, rfl⟩, h⟩ := h
  simp only [pure_eq_ok, Except.ok.injEq] at h
  subst h
  rw [show (0xFFFFFFFF:Nat) = 2 ^ 32 - 1 from rfl, Nat.and_two_pow_sub_one_eq_mod] at *
  have e : le 2 flags ++ (le 2 a.length ++ (a ++ (le 2 n.length ++ (n ++ (le 8 size ++
      le 4 (crc % 2 ^ 32)))))) ++ post = le 2 flags ++ (le 2 a.length ++ (a ++ (le 2 n.length ++ (n ++ (le 8 size ++
      (le 4 (crc % 2 ^ 32) ++ post)))))) := by simp
  rw [e]
  have hne : ∀ x : Bytes, le 2 flags ++ x ≠ [] := by
    intro x hx
    have := congrArg List.length hx
    simp at this
  unfold fileParse
  rw [if_neg (hne _)]
  have hu0 : ∀ r, unpackAt 2 (le 2 flags ++ r) 0 = .ok flags := fun r => unpackAt_append [] r rfl h0
  have hu4 : ∀ r, unpackAt 2 (le 2 flags ++ (le 2 a.length ++ r)) 2 = .ok a.length :=
    fun r => unpackAt_append (le 2 flags) r (by simp) h1
  rw [hu0, ok_bind, hu4, ok_bind]
  have hs1 : ∀ r, slice (le 2 flags ++ (le 2 a.length ++ (a ++ r))) 4 (4 + a.length) = a := by
    intro r; rw [← List.append_assoc]; exact slice_mid (by simp) rfl
  rw [hs1, utf8Dec_enc ha, ok_bind]
  have hu1 : ∀ r, unpackAt 2 (le 2 flags ++ (le 2 a.length ++ (a ++ (le 2 n.length ++ r)))) (4 + a.length) =
      .ok n.length := by
    intro r
    have := unpackAt_append (le 2 flags ++ (le 2 a.length ++ a)) r (off := 4 + a.length) (by simp; omega) h2
    simpa using this
  rw [hu1, ok_bind]
  have hs2 : ∀ r, slice (le 2 flags ++ (le 2 a.length ++ (a ++ (le 2 n.length ++ (n ++ r)))))
      (4 + a.length + 2) (4 + a.length + 2 + n.length) = n := by
    intro r
    have := slice_mid (pre := le 2 flags ++ (le 2 a.length ++ (a ++ le 2 n.length))) (mid := n) (post := r)
      (a := 4 + a.length + 2) (b := 4 + a.length + 2 + n.length) (by simp; omega) (by omega)
    simpa using this
  rw [hs2, utf8Dec_enc hn, ok_bind]
  have hu2 : ∀ r, unpackAt 8 (le 2 flags ++ (le 2 a.length ++ (a ++ (le 2 n.length ++ (n ++ (le 8 size ++ r))))))
      (4 + a.length + 2 + n.length) = .ok size := by
    intro r
    have := unpackAt_append (le 2 flags ++ (le 2 a.length ++ (a ++ (le 2 n.length ++ n)))) r
      (off := 4 + a.length + 2 + n.length) (by simp; omega) h3
    simpa using this
  dsimp only
  rw [hu2, ok_bind]
  have hu3 : ∀ r, unpackAt 4 (le 2 flags ++ (le 2 a.length ++ (a ++ (le 2 n.length ++ (n ++ (le 8 size ++
      (le 4 (crc % 2 ^ 32) ++ r))))))) (4 + a.length + 2 + n.length + 8) = .ok (crc % 2 ^ 32) := by
    intro r
    have := unpackAt_append (le 2 flags ++ (le 2 a.length ++ (a ++ (le 2 n.length ++ (n ++ le 8 size))))) r
      (off := 4 + a.length + 2 + n.length + 8) (by simp; omega) h4
    simpa using this
  rw [hu3, ok_bind]
  rfl

/-- C33: which descriptions can be written at all. -/
theorem file_data_accepted_iff (app : Str) (flags : Nat) (name : Str) (size crc : Nat) :
    (∃ b, fileSerialize app flags name size crc = .ok b) ↔
      Encodable app ∧ utf8Len app < 2 ^ 16 ∧ Encodable (basename name) ∧
      utf8Len (basename name) < 2 ^ 16 ∧ flags < 2 ^ 16 ∧ size < 2 ^ 64 := by
  have hc : crc &&& 0xFFFFFFFF < 256 ^ 4 := by
    have := Nat.and_le_right (n := crc) (m := 0xFFFFFFFF); omega
  unfold fileSerialize
  simp only [bind_eq_ok, pack_eq_ok, pure_eq_ok, Except.ok.injEq]
  constructor
  · rintro ⟨b, a, ha, n, hn, _, ⟨h0, _⟩, _, ⟨h1, _⟩, _, ⟨h2, _⟩, _, ⟨h3, _⟩, _⟩
    rw [utf8Enc_length ha] at h1
    rw [utf8Enc_length hn] at h2
    exact ⟨utf8Enc_ok_iff.mp ⟨a, ha⟩, by omega, utf8Enc_ok_iff.mp ⟨n, hn⟩, by omega, by omega, by omega⟩
  · rintro ⟨ha, h1, hn, h2, h0, h3⟩
    obtain ⟨a, ha⟩ := utf8Enc_ok_iff.mpr ha
    obtain ⟨n, hn⟩ := utf8Enc_ok_iff.mpr hn
    rw [← utf8Enc_length ha] at h1
    rw [← utf8Enc_length hn] at h2
    exact ⟨_, a, ha, n, hn, _, ⟨by omega, rfl⟩, _, ⟨by omega, rfl⟩, _, ⟨by omega, rfl⟩, _, ⟨by omega, rfl⟩,
      _, ⟨hc, rfl⟩, rfl⟩

example : fileSerialize (str "ab") 3 (str "/x/s.vob") 1000 0x1234567890 =
    .ok [3, 0, 2, 0, 97, 98, 5, 0, 115, 46, 118, 111, 98, 0xE8, 3, 0, 0, 0, 0, 0, 0, 0x90, 0x78, 0x56, 0x34] := by decide
example : ∃ b, fileSerialize resampleApp 3 (str "/x/s.vob") 1000 0x1234567890 = .ok b :=
  (file_data_accepted_iff ..).mpr (by unfold Encodable; decide)

/-! ### C34 -/

/-- C34, full statement: a track description that is written is read back. -/
def track_data_reads_back (t : TrackData) : Prop :=
  ∀ b post, trackSerialize t = .ok b → trackParse (b ++ post) =
    .ok { t with matchLength := 0, checkBytes := [] }

/-- C34: holds whenever the flag for big track numbers is set exactly when the number needs
more than 16 bits; for all lengths, with and without the flag for big files. -/
theorem track_data_round_trip_partial (t : TrackData)
    (hf : hasFlag t.flags 8 = true ↔ 2 ^ 16 ≤ t.number) : track_data_reads_back t := by
  intro b post h
  unfold trackSerialize at h
  simp only [bind_eq_ok, pack_eq_ok] at h
  obtain ⟨_, ⟨h0, rfl⟩, b1, hb1, b2, hb2, b3, hb3, _, ⟨h4, rfl⟩, h⟩ := h
  simp only [pure_eq_ok, Except.ok.injEq] at h
  subst h
  have hmo : ∃ m : Nat, t.matchOffset = m ∧ m < 256 ^ 8 ∧ b3 = le 8 m := by
    unfold packInt at hb3
    split at hb3
    · simp at hb3
    · rw [pack_eq_ok] at hb3
      exact ⟨t.matchOffset.toNat, by omega, hb3⟩
  obtain ⟨m, hm, hm8, rfl⟩ := hmo
  have hne : ∀ x : Bytes, le 2 t.flags ++ x ≠ [] := by
    intro x hx
    have := congrArg List.length hx
    simp at this
  -- the two optional widths
  have key : ∀ (e add : Nat), t.number < 256 ^ (2 + e) → t.dataLength < 256 ^ add →
      b1 = le (2 + e) t.number → b2 = le add t.dataLength →
      (hasFlag t.flags 8 = true ∧ e = 2 ∨ hasFlag t.flags 8 = false ∧ e = 0) →
      add = (if hasFlag t.flags 4 = true then 8 else 4) →
      trackParse (le 2 t.flags ++ (b1 ++ (b2 ++ (le 8 m ++ (le 2 t.sig.length ++ t.sig)))) ++ post) =
        .ok { t with matchLength := 0, checkBytes := [] } := by
    rintro e add hn hd rfl rfl he hadd
    have e1 : le 2 t.flags ++ (le (2 + e) t.number ++ (le add t.dataLength ++ (le 8 m ++ (le 2 t.sig.length ++
      t.sig)))) ++ post = le 2 t.flags ++ (le (2 + e) t.number ++ (le add t.dataLength ++ (le 8 m ++
        (le 2 t.sig.length ++ (t.sig ++ post))))) := by simp
    rw [e1]
    have u0 : ∀ r, unpackAt 2 (le 2 t.flags ++ r) 0 = .ok t.flags := fun r => unpackAt_append [] _ rfl h0
    have u1 : ∀ r, unpackAt (2 + e) (le 2 t.flags ++ (le (2 + e) t.number ++ r)) 2 = .ok t.number :=
      fun r => unpackAt_append (le 2 t.flags) _ (by simp) hn
    have u2 : ∀ r, unpackAt add (le 2 t.flags ++ (le (2 + e) t.number ++ (le add t.dataLength ++ r))) (e + 4) =
        .ok t.dataLength := by
      intro r
      have := unpackAt_append (le 2 t.flags ++ le (2 + e) t.number) r (off := e + 4) (by simp; omega) hd
      simpa using this
    have u3 : ∀ r, unpackAt 8 (le 2 t.flags ++ (le (2 + e) t.number ++ (le add t.dataLength ++ (le 8 m ++ r))))
        (e + 4 + add) = .ok m := by
      intro r
      have := unpackAt_append (le 2 t.flags ++ (le (2 + e) t.number ++ le add t.dataLength)) r
        (off := e + 4 + add) (by simp; omega) hm8
      simpa using this
    have u4 : ∀ r, unpackAt 2 (le 2 t.flags ++ (le (2 + e) t.number ++ (le add t.dataLength ++ (le 8 m ++
        (le 2 t.sig.length ++ r))))) (e + 4 + add + 8) = .ok t.sig.length := by
      intro r
      have := unpackAt_append (le 2 t.flags ++ (le (2 + e) t.number ++ (le add t.dataLength ++ le 8 m))) r
        (off := e + 4 + add + 8) (by simp; omega) h4
      simpa using this
    have u5 : slice (le 2 t.flags ++ (le (2 + e) t.number ++ (le add t.dataLength ++ (le 8 m ++
        (le 2 t.sig.length ++ (t.sig ++ post)))))) (e + 14 + add) (e + 14 + add + t.sig.length) = t.sig := by
      have := slice_mid (pre := le 2 t.flags ++ (le (2 + e) t.number ++ (le add t.dataLength ++ (le 8 m ++
        le 2 t.sig.length)))) (mid := t.sig) (post := post) (a := e + 14 + add)
        (b := e + 14 + add + t.sig.length) (by simp; omega) rfl
      simpa using this
    unfold trackParse
    rw [if_neg (hne _), u0, ok_bind, ← hadd]
    rcases he with ⟨h8, rfl⟩ | ⟨h8, rfl⟩ <;>
    · simp only [h8, if_true, Bool.false_eq_true, if_false]
      rw [u1, ok_bind]
      simp only [pure_eq_ok, ok_bind]
      rw [u2, ok_bind, u3, ok_bind, u4, ok_bind, u5]
      simp [← hm]
  have hd : ∃ add, add = (if hasFlag t.flags 4 = true then 8 else 4) ∧ t.dataLength < 256 ^ add ∧
      b2 = le add t.dataLength := by
    split at hb2 <;> rename_i h4' <;> simp only [h4', if_true] <;> rw [pack_eq_ok] at hb2
    · exact ⟨8, rfl, hb2⟩
    · exact ⟨4, by simp, hb2⟩
  obtain ⟨add, hadd, hdl, hb2'⟩ := hd
  split at hb1 <;> rename_i hn <;> rw [pack_eq_ok] at hb1
  · exact key 2 add hb1.1 hdl hb1.2 hb2' (Or.inl ⟨hf.mpr hn, rfl⟩) hadd
  · refine key 0 add hb1.1 hdl hb1.2 hb2' (Or.inr ⟨?_, rfl⟩) hadd
    cases h8 : hasFlag t.flags 8
    · rfl
    · exact absurd (hf.mp h8) hn

/-- C34: in particular for every track the program creates with a number below 65536 (no
code in the repository sets the flag for big track numbers; `flags` is 0 or 4). -/
theorem track_data_small_number (t : TrackData) (hn : t.number < 2 ^ 16)
    (hf : t.flags = 0 ∨ t.flags = 4) : track_data_reads_back t := by
  apply track_data_round_trip_partial
  constructor
  · intro h; rcases hf with h' | h' <;> rw [h'] at h <;> exact absurd h (by decide)
  · intro h; omega

/-- C34 is false for a track number of 65536 or more (possible in MP4): nothing sets the
flag, so the number is written with four bytes and read with two. -/
theorem track_data_big_number_broken :
    ¬ track_data_reads_back { number := 0x10002, dataLength := 5, sig := [9] } := by
  intro h
  exact absurd (h [0, 0, 2, 0, 1, 0, 5, 0, 0, 0, 0, 0, 0, 0, 0, 0, 0, 0, 1, 0, 9] [] (by decide)) (by decide)

/-- C34: what can be written. -/
theorem track_data_accepted_iff (t : TrackData) :
    (∃ b, trackSerialize t = .ok b) ↔
      t.flags < 2 ^ 16 ∧ t.number < 2 ^ 32 ∧
      t.dataLength < (if hasFlag t.flags 4 = true then 2 ^ 64 else 2 ^ 32) ∧
      0 ≤ t.matchOffset ∧ t.matchOffset < 2 ^ 64 ∧ t.sig.length < 2 ^ 16 := by
  unfold trackSerialize packInt
  simp only [bind_eq_ok, pack_eq_ok, pure_eq_ok, Except.ok.injEq]
  constructor
  · rintro ⟨b, _, ⟨h0, _⟩, _, h1, _, h2, _, h3, _, ⟨h4, _⟩, _⟩
    refine ⟨by omega, ?_, ?_, ?_⟩
    · split at h1 <;> rw [pack_eq_ok] at h1 <;> omega
    · split at h2 <;> rename_i h <;> rw [pack_eq_ok] at h2 <;> simp only [h, if_true, Bool.false_eq_true, if_false] <;> omega
    · split at h3
      · simp at h3
      · rw [pack_eq_ok] at h3; omega
  · rintro ⟨h0, h1, h2, h3, h4, h5⟩
    refine ⟨_, _, ⟨by omega, rfl⟩, if 2 ^ 16 ≤ t.number then le 4 t.number else le 2 t.number, ?_,
      if hasFlag t.flags 4 = true then le 8 t.dataLength else le 4 t.dataLength, ?_, le 8 t.matchOffset.toNat, ?_,
      _, ⟨by omega, rfl⟩, rfl⟩
    · split <;> rw [pack_ok (by omega)]
    · split at h2 <;> rename_i h <;> simp only [h, if_true, Bool.false_eq_true, if_false] <;> rw [pack_ok (by omega)]
    · rw [if_neg (by omega), pack_ok (by omega)]

example : trackSerialize { flags := 4, number := 1, dataLength := 5000000000, sig := [1, 2, 3] } =
    .ok [4, 0, 1, 0, 0, 0xF2, 5, 0x2A, 1, 0, 0, 0, 0, 0, 0, 0, 0, 0, 0, 0, 3, 0, 1, 2, 3] := by decide
example : track_data_reads_back { flags := 12, number := 70000, dataLength := 5, sig := [1] } :=
  track_data_round_trip_partial _ (by decide)

end Rescene.Props
