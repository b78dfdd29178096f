import Verif.Lemmas.AviSrs
/-
C37: AVI samples are rebuilt from their SRS and the data of the tracks.
-/
namespace Rescene.Props
open Rescene Spec

/-! ### Reading always ends -/

/-- What `read` returns is behind the position, and inside the file. -/
theorem riffRead_pos {mode : RiffMode} {file : Bytes} {pos : Nat} {c : RiffChunk} {p : Nat}
    (h : riffRead mode file pos = .ok (some (c, p))) :
    pos + 8 ≤ file.length ∧ pos + 8 ≤ p ∧ (c.kind = .list → p ≤ pos + 12) ∧ (c.kind ≠ .list → p = pos + 8) := by
  unfold riffRead at h
  split at h
  · simp at h
  · rename_i hl
    simp only [bind_eq_ok] at h
    obtain ⟨size, _, h⟩ := h
    split at h
    · simp at h
    · split at h
      · simp at h
      · split at h
        · simp only [pure_eq_ok, Except.ok.injEq, Option.some.injEq, Prod.mk.injEq] at h
          obtain ⟨rfl, rfl⟩ := h
          have := readAt_length file (pos + 8) 4
          refine ⟨by omega, by omega, fun _ => by omega, fun h => absurd rfl h⟩
        · simp only [pure_eq_ok, Except.ok.injEq, Option.some.injEq, Prod.mk.injEq] at h
          obtain ⟨rfl, rfl⟩ := h
          refine ⟨by omega, by omega, fun hk => ?_, fun _ => rfl⟩
          dsimp only at hk
          split at hk
          · simp at hk
          · split at hk <;> simp at hk

theorem riffNext_pos {mode : RiffMode} {enter : RiffChunk → Bool} {file : Bytes} {pos : Nat} {it : RiffItem} {q : Nat}
    (h : riffNext mode enter file pos = .ok (some (it, q))) : pos + 8 ≤ file.length ∧ pos < q := by
  unfold riffNext at h
  simp only [bind_eq_ok] at h
  obtain ⟨x, hr, h⟩ := h
  cases x with
  | none => simp at h
  | some cp =>
    obtain ⟨c, p⟩ := cp
    obtain ⟨h1, h2, h3, h4⟩ := riffRead_pos hr
    dsimp only at h
    split at h
    · simp only [pure_eq_ok, Except.ok.injEq, Option.some.injEq, Prod.mk.injEq] at h
      omega
    · simp only [bind_eq_ok] at h
      obtain ⟨⟨data, pad, q'⟩, hc, h⟩ := h
      simp only [pure_eq_ok, Except.ok.injEq, Option.some.injEq, Prod.mk.injEq] at h
      obtain ⟨_, rfl⟩ := h
      refine ⟨h1, ?_⟩
      unfold riffContents at hc
      dsimp only at hc
      have hn : pos < (p + (if mode = .srs ∧ c.kind = .movi then 0 else c.length) : Int).toNat := by
        split
        · omega
        · unfold RiffChunk.length
          split <;> omega
      split at hc
      · split at hc
        · simp only [Except.ok.injEq, Prod.mk.injEq] at hc
          omega
        · simp at hc
      · simp only [Except.ok.injEq, Prod.mk.injEq] at hc
        omega

theorem riffRead_no_fuel (mode : RiffMode) (file : Bytes) (pos : Nat) : riffRead mode file pos ≠ .error .fuel := by
  unfold riffRead
  split
  · simp
  · intro h
    dsimp only at h
    cases hu : unpackAt 4 (readAt file pos 8) 4 with
    | error e =>
      rw [hu, error_bind] at h
      simp only [Except.error.injEq] at h
      subst h
      unfold unpackAt at hu
      split at hu <;> simp at hu
    | ok size =>
      rw [hu, ok_bind] at h
      split at h
      · simp at h
      · split at h
        · simp at h
        · split at h <;> simp at h

theorem riffContents_no_fuel (mode : RiffMode) (file : Bytes) (c : RiffChunk) (p : Nat) :
    riffContents mode file c p ≠ .error .fuel := by
  unfold riffContents
  dsimp only
  split
  · split <;> simp
  · simp

theorem riffNext_no_fuel (mode : RiffMode) (enter : RiffChunk → Bool) (file : Bytes) (pos : Nat) :
    riffNext mode enter file pos ≠ .error .fuel := by
  unfold riffNext
  intro h
  cases hr : riffRead mode file pos with
  | error e =>
    rw [hr, error_bind] at h
    injection h with h
    subst h
    exact riffRead_no_fuel _ _ _ hr
  | ok x =>
    rw [hr, ok_bind] at h
    cases x with
    | none => simp at h
    | some cp =>
      obtain ⟨c, p⟩ := cp
      dsimp only at h
      split at h
      · simp at h
      · cases hc : riffContents mode file c p with
        | error e =>
          rw [hc, error_bind] at h
          injection h with h
          subst h
          exact riffContents_no_fuel _ _ _ _ hc
        | ok y => rw [hc, ok_bind] at h; simp at h

/-- C37: going through the chunks of any file ends, however damaged it is: what is done for each
chunk is done at most once per byte of the file. -/
theorem riff_terminates {σ : Type} (mode : RiffMode) (enter : RiffChunk → Bool) (peek : Bool) (file : Bytes)
    (f : σ → RiffItem → Res (σ × Bool)) (hf : ∀ s it, f s it ≠ .error .fuel) (s : σ) (fuel pos : Nat)
    (hfu : file.length < pos + fuel) : riffLoop mode enter peek file f fuel pos s ≠ .error .fuel ∨ fuel = 0 := by
  induction fuel generalizing pos s with
  | zero => exact Or.inr rfl
  | succ fuel ih =>
    left
    intro h
    rw [riffLoop] at h
    cases hn : riffNext mode enter file pos with
    | error e =>
      rw [hn, error_bind] at h
      injection h with h
      subst h
      exact riffNext_no_fuel _ _ _ _ hn
    | ok x =>
      rw [hn, ok_bind] at h
      cases x with
      | none => simp at h
      | some iq =>
        obtain ⟨it, q⟩ := iq
        obtain ⟨hl, hq⟩ := riffNext_pos hn
        dsimp only at h
        cases hfs : f s it with
        | error e =>
          rw [hfs, error_bind] at h
          injection h with h
          subst h
          exact hf _ _ hfs
        | ok y =>
          rw [hfs, ok_bind] at h
          split at h
          · rcases ih y.1 q (by omega) with h' | h'
            · exact h' h
            · omega
          · split at h
            · cases hr : riffRead mode file q with
              | error e =>
                rw [hr, error_bind] at h
                injection h with h
                subst h
                exact riffRead_no_fuel _ _ _ hr
              | ok z => rw [hr, ok_bind] at h; simp at h
            · simp at h

/-! ### C37 -/

/-- The SRS of a sample made with these tracks, read and used for rebuilding. -/
theorem avi_srs_rebuilds {app name : Str} {size crc : Nat} {tracks : Tracks} {big : Bool} {parts : List AviPart} {srs : Bytes}
    (hp : PlainAvi parts)
    (ht : ∀ p ∈ tracks, p.1 = p.2.number ∧ p.2.number < 2 ^ 16 ∧ p.2.flags = 0)
    (hd : tracks.Pairwise (fun a b => a.1 ≠ b.1))
    (h : aviCreateSrs app name size crc tracks big (aviBytes parts) = .ok srs) :
    aviLoadSrs srs = .ok (⟨3, app, basename name, size, crc % 2 ^ 32⟩, tracks.map fun p => (p.1, readTrack big p.2)) ∧
    ∀ (ts : Tracks) (files : TrackFiles), (∀ t ∈ ts, files t.1 ≠ none) → HasData ts files parts →
      aviRebuild srs ts files = .ok (aviBytes parts, crc32 (aviBytes parts) 0) := by
  obtain ⟨a, m, b, e, hm, ha⟩ := hp.movi
  cases hb : aviSrsChunks app name size crc tracks big with
  | error er =>
    rw [aviCreate_error hp.ok ⟨m, by rw [e]; simp, hm⟩ hb] at h
    simp at h
  | ok own =>
    obtain ⟨f, ds, h1, h2, h3, rfl⟩ := srsChunks_ok ht hb
    rw [aviCreate_ok hp.ok hb] at h
    injection h with h
    subst h
    have hok := withOwn_ok (ownParts_ok h2 h3) hp.ok
    constructor
    · unfold aviLoadSrs
      rw [riffWalk_parts hok (enters_all _ _) (fitsFrom_of_ne (by decide) _ _ _), e,
        load_fold h3 h1 hd hm (by rw [← e]; exact hp.ok) (by rw [← e]; exact hp.own) ha]
      rfl
    · intro ts files hfiles hdata
      unfold aviRebuild
      rw [if_neg]
      · rw [riffWalk_parts hok ?_ (fitsFrom_of_ne (by decide) _ _ _)]
        · obtain ⟨files', h4⟩ := rebuild_fold (f := f) (ds := ds) (out := []) (crc := 0) 0 hp.ok hp.own hdata
          rw [h4]
          rfl
        · intro p hpm pos hk
          simp only [withOwn, List.mem_flatMap] at hpm
          obtain ⟨q, hq, hpm⟩ := hpm
          have own_no : ∀ p ∈ ownParts f ds, (p.item .srs pos).chunk.kind ≠ .list := by
            intro p hp
            rcases List.mem_cons.1 hp with rfl | hp
            · exact kindOf_ne_list mSRSF
            · obtain ⟨d, _, rfl⟩ := List.mem_map.1 hp
              exact kindOf_ne_list mSRST
          have hpq : p = q := by
            split at hpm
            · rcases List.mem_cons.1 hpm with hpm | hpm
              · exact hpm
              · exact absurd hk (own_no p hpm)
            · simpa using hpm
          subst hpq
          cases p with
          | chunk => exact absurd hk (kindOf_ne_list _)
          | list riff size name =>
            have := hp.own _ hq
            simp only [AviPart.isOwn] at this
            simp only [AviPart.item, mSRSF, mSRST, this, Bool.not_false]
      · intro hany
        obtain ⟨t, htm, hn⟩ := List.any_eq_true.1 hany
        exact hfiles t htm (by simpa using hn)

/-- The tracks of a sample, as stored. -/
theorem tracksOf_small {parts : List AviPart} {ts : Tracks} (h : TracksOf parts ts) :
    ∀ p ∈ ts, p.1 = p.2.number ∧ p.2.number < 2 ^ 16 ∧ p.2.flags = 0 := by
  intro p hp
  obtain ⟨n, t⟩ := p
  have hd := h.data n t hp
  obtain ⟨q, hq, hqt⟩ := (h.keys n).1 (List.mem_map.2 ⟨_, hp, rfl⟩)
  have hn : n < 2 ^ 16 := by
    cases q with
    | list => simp [AviPart.track] at hqt
    | chunk id data pad =>
      simp only [AviPart.track] at hqt
      split at hqt
      · rename_i x y _
        split at hqt
        · injection hqt with hqt
          have := x.toNat_lt
          have := y.toNat_lt
          omega
        · simp at hqt
      · simp at hqt
  subst hd
  exact ⟨rfl, hn, rfl⟩

/-- C37: for every AVI sample with a usual structure (`PlainAvi`), of any size and with any number
of tracks and chunks: when an SRS is created, reading it gives the name, size and CRC of the
sample and, for exactly the tracks it has, their length and first bytes; and rebuilding from it
with files that start with the data of the tracks gives the sample back, byte for byte, padding
included.  The files may be longer, and there may be files of other tracks. -/
theorem avi_strip_rebuild_partial {app name : Str} {parts : List AviPart} {big : Bool} {srs : Bytes} (hp : PlainAvi parts)
    (h : srsAviCreate app name (aviBytes parts) big none = .ok srs) :
    (∃ ts, aviLoadSrs srs = .ok (⟨3, app, basename name, (aviBytes parts).length, (crc32 (aviBytes parts) 0).toNat⟩, ts) ∧
      ts.Pairwise (fun a b => a.1 ≠ b.1) ∧
      ∀ n t, (n, t) ∈ ts ↔ (∃ p ∈ parts, p.track = some n) ∧
        t = { flags := if big then 4 else 0, number := n, dataLength := (trackBytes parts n).length, matchOffset := 0, sig := (trackBytes parts n).take 256 }) ∧
    ∀ (ts : Tracks) (files : TrackFiles), (∀ t ∈ ts, files t.1 ≠ none) →
      (∀ n, (∃ p ∈ parts, p.track = some n) →
        (∃ t, (n, t) ∈ ts) ∧ ∃ rest, files n = some (trackBytes parts n ++ rest)) →
      aviRebuild srs ts files = .ok (aviBytes parts, crc32 (aviBytes parts) 0) := by
  unfold srsAviCreate at h
  split at h
  · simp at h
  · simp only [bind_eq_ok] at h
    obtain ⟨⟨crc, tracks⟩, hprof, h⟩ := h
    obtain ⟨rfl, hts⟩ := aviProfile_ok hp.ok hprof
    dsimp only at h
    split at h
    · simp at h
    · change aviCreateSrs _ _ _ _ _ _ _ = _ at h
      obtain ⟨h1, h2⟩ := avi_srs_rebuilds hp (tracksOf_small hts) hts.distinct h
      refine ⟨⟨tracks.map fun p => (p.1, readTrack big p.2), ?_, List.pairwise_map.2 hts.distinct, ?_⟩, ?_⟩
      · rw [h1, Nat.mod_eq_of_lt (BitVec.isLt _)]
      · intro n t
        simp only [List.mem_map, Prod.mk.injEq]
        constructor
        · rintro ⟨⟨k, u⟩, hm, rfl, rfl⟩
          refine ⟨(hts.keys k).1 (List.mem_map.2 ⟨_, hm, rfl⟩), ?_⟩
          rw [hts.data k u hm]
          cases big <;> simp [readTrack, trackOf]
        · rintro ⟨hk, rfl⟩
          obtain ⟨⟨k, u⟩, hm, rfl⟩ := List.mem_map.1 ((hts.keys n).2 hk)
          refine ⟨(k, u), hm, rfl, ?_⟩
          rw [hts.data k u hm]
          cases big <;> simp [readTrack, trackOf]
      · intro ts files hf hdat
        refine h2 ts files hf fun n hn => ?_
        obtain ⟨⟨t, ht⟩, hr⟩ := hdat n hn
        exact ⟨List.mem_map.2 ⟨_, ht, rfl⟩, hr⟩


/-! ### What is accepted -/

/-- A list header that the end of the file cuts off before its name is complete. -/
def CutList (b : Bytes) : Prop := 8 ≤ b.length ∧ b.length < 12 ∧ (b.take 4 = riffId ∨ b.take 4 = listId)

theorem nameByte_of_valid {b : Bytes} (h : validFourcc b = true) : b.length = 4 ∧ ∀ x ∈ b, NameByte x := by
  simp only [validFourcc, Bool.and_eq_true, beq_iff_eq, List.all_eq_true] at h
  exact ⟨h.1, fun x hx => (isFourccB_iff x).1 (h.2 x hx)⟩

theorem readAt_eq_take (b : Bytes) (pos n : Nat) : readAt b pos n = (b.drop pos).take n := rfl

/-- What one step in a sample reads. -/
theorem sample_next_inv {file : Bytes} {pos : Nat} {it : RiffItem} {q : Nat}
    (h : riffNext .sample (fun _ => true) file pos = .ok (some (it, q))) :
    (∃ p : AviPart, p.Ok ∧ it = p.item .sample pos ∧ q = pos + p.bytes.length ∧
      file.drop pos = p.bytes ++ file.drop q ∧ q ≤ file.length) ∨
    (CutList (file.drop pos) ∧ it.chunk.kind = .list ∧ it.chunk.header = file.drop pos ∧ q = file.length) := by
  unfold riffNext at h
  simp only [bind_eq_ok] at h
  obtain ⟨x, hr, h⟩ := h
  cases x with
  | none => simp at h
  | some cp =>
    obtain ⟨c, p⟩ := cp
    dsimp only at h
    unfold riffRead at hr
    split at hr
    · simp at hr
    · rename_i hlen
      dsimp only at hr
      simp only [bind_eq_ok] at hr
      obtain ⟨size, hsz, hr⟩ := hr
      obtain ⟨d, hd⟩ : ∃ d, d = file.drop pos := ⟨_, rfl⟩
      have hdl : d.length = file.length - pos := by rw [hd]; simp
      have h8 : readAt file pos 8 = d.take 8 := by rw [readAt_eq_take, hd]
      rw [h8] at hsz hr
      have h4 : (d.take 8).take 4 = d.take 4 := by simp [List.take_take]
      rw [h4] at hr
      have hsize : le 4 size = (d.take 8).drop 4 ∧ size < 2 ^ 32 := by
        unfold unpackAt at hsz
        split at hsz
        · have hl : slice (d.take 8) 4 (4 + 4) = (d.take 8).drop 4 := by
            simp [slice, List.take_take]
          rw [hl] at hsz
          injection hsz with hsz
          have h4' : ((d.take 8).drop 4).length = 4 := by simp; omega
          subst hsz
          constructor
          · have := le_ofLe ((d.take 8).drop 4)
            rwa [h4'] at this
          · have := ofLe_lt ((d.take 8).drop 4)
            rwa [h4'] at this
        · simp at hsz
      have hsplit : d = d.take 4 ++ (le 4 size ++ d.drop 8) := by
        rw [hsize.1]
        have e1 : d = d.take 8 ++ d.drop 8 := (List.take_append_drop 8 d).symm
        have e2 : d.take 8 = (d.take 8).take 4 ++ (d.take 8).drop 4 := (List.take_append_drop 4 _).symm
        rw [h4] at e2
        rw [← List.append_assoc, ← e2]
        exact e1
      split at hr
      · simp at hr
      · rename_i hval
        simp only [Bool.not_eq_false] at hval
        obtain ⟨hn4, hnb⟩ := nameByte_of_valid hval
        split at hr
        · simp at hr
        · rename_i hfit
          split at hr
          · rename_i hlist
            simp only [pure_eq_ok, Except.ok.injEq, Option.some.injEq, Prod.mk.injEq] at hr
            obtain ⟨rfl, rfl⟩ := hr
            simp only [and_self, if_true, pure_eq_ok, Except.ok.injEq, Option.some.injEq, Prod.mk.injEq] at h
            obtain ⟨rfl, rfl⟩ := h
            have hmore : readAt file (pos + 8) 4 = (d.drop 8).take 4 := by
              rw [readAt_eq_take, hd, List.drop_drop]
            have h88 : d.take 8 = d.take 4 ++ le 4 size := by
              rw [hsize.1]
              have e2 : d.take 8 = (d.take 8).take 4 ++ (d.take 8).drop 4 := (List.take_append_drop 4 _).symm
              rwa [h4] at e2
            rw [hmore, ← hd]
            by_cases hc : 12 ≤ d.length
            · left
              obtain ⟨riff, hriff⟩ : ∃ riff : Bool, d.take 4 = if riff then riffId else listId := by
                rcases hlist with h | h
                · exact ⟨true, h⟩
                · exact ⟨false, h⟩
              have hm4 : ((d.drop 8).take 4).length = 4 := by simp; omega
              refine ⟨.list riff size ((d.drop 8).take 4), ⟨hsize.2, hm4⟩, ?_, ?_, ?_, ?_⟩
              · simp only [AviPart.item, h88, hriff, List.append_assoc]
                cases riff <;> rfl
              · simp only [AviPart.bytes, List.length_append, le_length, hm4]
                cases riff <;> simp [riffId, listId]
              · simp only [AviPart.bytes, ← hriff, hm4, List.append_assoc]
                rw [show pos + 8 + 4 = pos + 12 from rfl, ← List.drop_drop, ← hd,
                  show d.drop 12 = (d.drop 8).drop 4 by rw [List.drop_drop], List.take_append_drop]
                exact hsplit
              · rw [hm4]; omega
            · right
              have hm : (d.drop 8).take 4 = d.drop 8 := List.take_of_length_le (by simp; omega)
              refine ⟨⟨by omega, by omega, hlist⟩, rfl, ?_, ?_⟩
              · rw [hm, List.take_append_drop]
              · rw [hm]; simp; omega
          · rename_i hnl
            simp only [pure_eq_ok, Except.ok.injEq, Option.some.injEq, Prod.mk.injEq] at hr
            obtain ⟨rfl, rfl⟩ := hr
            have hk2 : (d.take 8).take 2 = (d.take 4).take 2 := by simp [List.take_take]
            have hkind : (if ((d.take 8).take 2).all isDigitB = true then RiffKind.movi
                else if d.take 4 = cIdx1 then .index else .unknown) = kindOf (d.take 4) := by rw [hk2]; rfl
            rw [hkind] at h
            rw [if_neg (show ¬ ((⟨kindOf (d.take 4), d.take 4, [], size, d.take 8, pos⟩ : RiffChunk).kind = RiffKind.list ∧ True)
              from fun hh => kindOf_ne_list _ hh.1)] at h
            simp only [bind_eq_ok] at h
            obtain ⟨⟨data, pad, q'⟩, hc, h⟩ := h
            simp only [pure_eq_ok, Except.ok.injEq, Option.some.injEq, Prod.mk.injEq] at h
            obtain ⟨rfl, rfl⟩ := h
            left
            have hle : pos + 8 + size ≤ file.length := by
              refine Nat.le_of_not_lt fun hlt => hfit ⟨trivial, ?_, hlt⟩
              exact fun he => hnl (Or.inl he)
            unfold riffContents at hc
            have e1 : RiffChunk.length ⟨kindOf (d.take 4), d.take 4, [], size, d.take 8, pos⟩ = size := by
              unfold RiffChunk.length
              rw [if_neg (kindOf_ne_list _)]
            have e2 : (if RiffMode.sample = RiffMode.srs ∧ kindOf (d.take 4) = RiffKind.movi then (0 : Int) else size) = size := by
              rw [if_neg (by simp)]
            dsimp only at hc
            rw [e1, e2] at hc
            have e3 : (size : Int).toNat = size := by omega
            have e4 : ((pos + 8 : Nat) + (size : Int)).toNat = pos + 8 + size := by omega
            rw [e3, e4] at hc
            have hdat : readAt file (pos + 8) size = (d.drop 8).take size := by
              rw [readAt_eq_take, hd, List.drop_drop]
            have hdatl : ((d.drop 8).take size).length = size := by simp; omega
            have h88 : d.take 8 = d.take 4 ++ le 4 size := by
              rw [hsize.1]
              have e2 : d.take 8 = (d.take 8).take 4 ++ (d.take 8).drop 4 := (List.take_append_drop 4 _).symm
              rwa [h4] at e2
            have hdrop : d.drop 8 = (d.drop 8).take size ++ file.drop (pos + 8 + size) := by
              have : file.drop (pos + 8 + size) = (d.drop 8).drop size := by rw [hd, List.drop_drop, List.drop_drop]; congr 1; omega
              rw [this, List.take_append_drop]
            rw [hdat] at hc
            rw [RiffChunk.padded] at hc
            dsimp only at hc
            split at hc
            · rename_i hodd
              simp only [beq_iff_eq] at hodd
              split at hc
              · rename_i b t hb
                simp only [Except.ok.injEq, Prod.mk.injEq] at hc
                obtain ⟨rfl, rfl, rfl⟩ := hc
                rw [readAt_eq_take] at hb
                have hb' : file.drop (pos + 8 + size) = b :: file.drop (pos + 8 + size + 1) := by
                  cases hf : file.drop (pos + 8 + size) with
                  | nil => rw [hf] at hb; simp at hb
                  | cons y l =>
                    rw [hf] at hb
                    simp at hb
                    rw [← List.drop_drop, hf, hb.1]
                    rfl
                have hlt : pos + 8 + size + 1 ≤ file.length := by
                  have := congrArg List.length hb'
                  simp at this
                  omega
                refine ⟨.chunk (d.take 4) ((d.drop 8).take size) b,
                  ⟨hn4, hnb, fun he => hnl (Or.inl he), fun he => hnl (Or.inr he), by rw [hdatl]; exact hsize.2⟩, ?_, ?_, ?_, hlt⟩
                · simp only [AviPart.item, hdatl, hodd, if_true, h88]
                  simp
                · simp only [AviPart.bytes, List.length_append, le_length, hdatl, padding, hodd, if_true, hn4,
                    List.length_singleton]
                  omega
                · simp only [AviPart.bytes, padding, hdatl, hodd, if_true, List.append_assoc]
                  rw [List.singleton_append, ← hb', ← hdrop, ← hd]
                  exact hsplit
              · simp at hc
            · rename_i hodd
              simp only [beq_iff_eq] at hodd
              simp only [Except.ok.injEq, Prod.mk.injEq] at hc
              obtain ⟨rfl, rfl, rfl⟩ := hc
              refine ⟨.chunk (d.take 4) ((d.drop 8).take size) 0,
                ⟨hn4, hnb, fun he => hnl (Or.inl he), fun he => hnl (Or.inr he), by rw [hdatl]; exact hsize.2⟩, ?_, ?_, ?_, hle⟩
              · simp only [AviPart.item, hdatl, hodd, if_false, h88]
                simp
              · simp only [AviPart.bytes, List.length_append, le_length, hdatl, padding, hodd, if_false, hn4, List.length_nil]
                omega
              · simp only [AviPart.bytes, padding, hdatl, hodd, if_false, List.append_nil]
                rw [List.append_assoc, List.append_assoc, ← hdrop, ← hd]
                exact hsplit

theorem riffNext_none {mode : RiffMode} {enter : RiffChunk → Bool} {file : Bytes} {pos : Nat}
    (h : riffNext mode enter file pos = .ok none) : file.length < pos + 8 := by
  unfold riffNext at h
  simp only [bind_eq_ok] at h
  obtain ⟨x, hr, h⟩ := h
  cases x with
  | none =>
    unfold riffRead at hr
    split at hr
    · omega
    · simp only [bind_eq_ok] at hr
      obtain ⟨size, _, hr⟩ := hr
      split at hr
      · simp at hr
      · split at hr
        · simp at hr
        · split at hr <;> simp at hr
  | some cp =>
    obtain ⟨c, p⟩ := cp
    dsimp only at h
    split at h
    · simp at h
    · simp only [bind_eq_ok] at h
      obtain ⟨y, _, h⟩ := h
      simp at h

theorem profile_accounts {file : Bytes} : ∀ {fuel pos : Nat} {s s' : AviProfile} {parts : List AviPart},
    (∀ p ∈ parts, p.Ok) → pos ≤ file.length → file = aviBytes parts ++ file.drop pos →
    TracksOf parts s.tracks → s.crc = crc32 (aviBytes parts) 0 →
    s.other + (s.tracks.map (·.2.dataLength)).sum = pos →
    riffLoop .sample (fun _ => true) false file aviProfileItem fuel pos s = .ok s' →
    s'.other + (s'.tracks.map (·.2.dataLength)).sum = file.length →
    ∃ parts tail, file = aviBytes parts ++ tail ∧ (∀ p ∈ parts, p.Ok) ∧ (tail = [] ∨ CutList tail) ∧
      s'.crc = crc32 file 0 ∧ TracksOf parts s'.tracks := by
  intro fuel
  induction fuel with
  | zero => intro pos s s' parts _ _ _ _ _ _ h; simp [riffLoop] at h
  | succ fuel ih =>
    intro pos s s' parts hok hpos hfile htr hcrc hsum h hall
    rw [riffLoop] at h
    simp only [bind_eq_ok] at h
    obtain ⟨x, hn, h⟩ := h
    cases x with
    | none =>
      simp only [pure_eq_ok, Except.ok.injEq] at h
      subst h
      have hp : pos = file.length := by omega
      refine ⟨parts, [], ?_, hok, Or.inl rfl, ?_, htr⟩
      · rw [hp, List.drop_length] at hfile; exact hfile
      · rw [hp, List.drop_length, List.append_nil] at hfile
        rw [hcrc, ← hfile]
    | some iq =>
      obtain ⟨it, q⟩ := iq
      dsimp only at h
      simp only [bind_eq_ok] at h
      obtain ⟨⟨s1, go⟩, hf, h⟩ := h
      have hgo := profileItem_go _ _ _ _ hf
      subst hgo
      simp only [if_true] at h
      rcases sample_next_inv hn with ⟨p, hpok, rfl, hq, hdrop, hqle⟩ | ⟨hcut, hk, hhd, hq⟩
      · obtain ⟨s2, g1, g2, g3, g4⟩ := profile_item (pos := pos) hpok htr
        rw [hf] at g1
        simp only [Except.ok.injEq, Prod.mk.injEq, and_true] at g1
        subst g1
        have eb : aviBytes (parts ++ [p]) = aviBytes parts ++ p.bytes := by simp [aviBytes]
        refine ih (parts := parts ++ [p]) ?_ hqle ?_ g2 ?_ ?_ h hall
        · intro r hr
          rcases List.mem_append.1 hr with hr | hr
          · exact hok r hr
          · simp only [List.mem_singleton] at hr; subst hr; exact hpok
        · rw [eb, List.append_assoc, ← hdrop]; exact hfile
        · rw [g3, hcrc, eb, crc32_append]
        · omega
      · unfold aviProfileItem at hf
        rw [if_pos hk] at hf
        simp only [Except.ok.injEq, Prod.mk.injEq, and_true] at hf
        subst hf
        cases fuel with
        | zero => simp [riffLoop] at h
        | succ fuel =>
          rw [riffLoop] at h
          have hend : riffNext .sample (fun _ => true) file q = .ok none := by
            unfold riffNext
            rw [hq, riffRead_end]
            rfl
          rw [hend] at h
          simp only [ok_bind, pure_eq_ok, Except.ok.injEq] at h
          subst h
          refine ⟨parts, file.drop pos, hfile, hok, Or.inr hcut, ?_, htr⟩
          rw [hhd, hcrc, ← crc32_append, ← hfile]

/-- C37: every file accepted as an AVI sample is a sequence of lists and chunks that fills it
completely (at most, the name of a list is cut off at the end).  Its CRC is computed correctly, and
the tracks are exactly those that occur in it, with the right lengths and first bytes. -/
theorem avi_accepted {file : Bytes} {crc : BitVec 32} {ts : Tracks} (h : aviProfile file = .ok (crc, ts)) :
    ∃ parts tail, file = aviBytes parts ++ tail ∧ (∀ p ∈ parts, p.Ok) ∧ (tail = [] ∨ CutList tail) ∧
      crc = crc32 file 0 ∧ ∀ n t, (n, t) ∈ ts ↔ (∃ p ∈ parts, p.track = some n) ∧
        t = { number := n, dataLength := (trackBytes parts n).length, sig := (trackBytes parts n).take 256 } := by
  unfold aviProfile at h
  simp only [bind_eq_ok] at h
  obtain ⟨s, hs, h⟩ := h
  split at h
  · simp at h
  · rename_i hl
    simp only [pure_eq_ok, Except.ok.injEq, Prod.mk.injEq] at h
    obtain ⟨rfl, rfl⟩ := h
    obtain ⟨parts, tail, h1, h2, h3, h4, hts⟩ := profile_accounts (parts := []) (s := ⟨0, 0, []⟩) (by simp) (Nat.zero_le _)
      rfl tracksOf_nil rfl rfl hs (by omega)
    refine ⟨parts, tail, h1, h2, h3, h4, fun n t => ⟨fun hm => ⟨(hts.keys n).1 (List.mem_map.2 ⟨_, hm, rfl⟩), hts.data n t hm⟩, ?_⟩⟩
    rintro ⟨hk, rfl⟩
    obtain ⟨⟨k, u⟩, hm, rfl⟩ := List.mem_map.1 ((hts.keys n).2 hk)
    have := hts.data k u hm
    subst this
    exact hm

/-! ### When an SRS can be created -/

theorem trackBytes_le (parts : List AviPart) (n : Nat) : (trackBytes parts n).length ≤ (aviBytes parts).length := by
  induction parts with
  | nil => simp [trackBytes]
  | cons p ps ih =>
    rw [show p :: ps = [p] ++ ps from rfl, trackBytes_append]
    have e : aviBytes ([p] ++ ps) = p.bytes ++ aviBytes ps := by simp [aviBytes]
    rw [e, List.length_append, List.length_append]
    have : (trackBytes [p] n).length ≤ p.bytes.length := by
      cases p with
      | list => simp [trackBytes]
      | chunk id data pad =>
        simp only [trackBytes, List.flatMap_cons, List.flatMap_nil, List.append_nil, AviPart.bytes, List.length_append]
        split
        · omega
        · simp
    omega

theorem file_data_short {app name : Str} {flags size crc : Nat} {b : Bytes}
    (h : fileSerialize app flags name size crc = .ok b) : b.length < 2 ^ 18 := by
  unfold fileSerialize at h
  simp only [bind_eq_ok, pack_eq_ok, pure_eq_ok, Except.ok.injEq] at h
  obtain ⟨a, _, n, _, _, ⟨_, rfl⟩, _, ⟨h1, rfl⟩, _, ⟨h2, rfl⟩, _, ⟨_, rfl⟩, _, ⟨_, rfl⟩, rfl⟩ := h
  simp only [List.length_append, le_length]
  omega

theorem track_data_short {t : TrackData} {b : Bytes} (h : trackSerialize t = .ok b) : b.length < 2 ^ 17 := by
  unfold trackSerialize at h
  simp only [bind_eq_ok, pure_eq_ok, Except.ok.injEq] at h
  obtain ⟨_, h0, _, h1, _, h2, _, h3, _, h4, rfl⟩ := h
  rw [pack_eq_ok] at h0 h4
  have l1 : ∀ {x : Bytes}, (if 2 ^ 16 ≤ t.number then pack 4 t.number else pack 2 t.number) = .ok x → x.length ≤ 4 := by
    intro x hx
    split at hx <;> rw [pack_eq_ok] at hx <;> obtain ⟨_, rfl⟩ := hx <;> simp
  have l2 : ∀ {x : Bytes}, (if hasFlag t.flags 4 = true then pack 8 t.dataLength else pack 4 t.dataLength) = .ok x →
      x.length ≤ 8 := by
    intro x hx
    split at hx <;> rw [pack_eq_ok] at hx <;> obtain ⟨_, rfl⟩ := hx <;> simp
  have l3 : ∀ {x : Bytes}, packInt 8 t.matchOffset = .ok x → x.length ≤ 8 := by
    intro x hx
    unfold packInt at hx
    split at hx
    · simp at hx
    · rw [pack_eq_ok] at hx; obtain ⟨_, rfl⟩ := hx; simp
  have := l1 h1
  have := l2 h2
  have := l3 h3
  obtain ⟨_, rfl⟩ := h0
  obtain ⟨h4, rfl⟩ := h4
  simp only [List.length_append, le_length]
  omega

theorem riffBlock_accepts (marker : Bytes) {data : Bytes} (h : data.length < 2 ^ 32) : ∃ b, riffBlock marker data = .ok b := by
  unfold riffBlock
  rw [pack_ok h]
  exact ⟨_, rfl⟩

theorem mapM_ok {α β : Type} {f : α → Res β} {l : List α} (h : ∀ a ∈ l, ∃ b, f a = .ok b) : ∃ r, l.mapM f = .ok r := by
  induction l with
  | nil => exact ⟨[], rfl⟩
  | cons a l ih =>
    obtain ⟨b, hb⟩ := h a (by simp)
    obtain ⟨r, hr⟩ := ih fun x hx => h x (by simp [hx])
    exact ⟨b :: r, mapM_ok_cons.2 ⟨b, r, hb, hr, rfl⟩⟩

/-- C37: an SRS is created for every file that is a sequence of well formed lists and chunks, with
at least one chunk of a track, no list longer than what follows it, and below 2 GiB (with "-b"
below 2^64 bytes), when its name can be encoded. -/
theorem avi_create_succeeds {app name : Str} {parts : List AviPart} {big : Bool} (hok : ∀ p ∈ parts, p.Ok)
    (hfit : ListsFit parts) (htrack : ∃ p ∈ parts, p.track ≠ none)
    (hsize : (aviBytes parts).length < if big then 2 ^ 64 else 2 ^ 31)
    (happ : Encodable app ∧ utf8Len app < 2 ^ 16) (hname : Encodable (basename name) ∧ utf8Len (basename name) < 2 ^ 16) :
    ∃ srs, srsAviCreate app name (aviBytes parts) big none = .ok srs := by
  obtain ⟨ts, hprof, hts⟩ := aviProfile_accepts hok hfit
  have hne : ts ≠ [] := by
    rintro rfl
    obtain ⟨p, hp, hpt⟩ := htrack
    cases h : p.track with
    | none => exact hpt h
    | some n => simpa [trackKeys] using (hts.keys n).2 ⟨p, hp, h⟩
  obtain ⟨f, hf⟩ := (file_data_accepted_iff app 3 name (aviBytes parts).length (crc32 (aviBytes parts) 0).toNat).2
    ⟨happ.1, happ.2, hname.1, hname.2, by omega, by cases big <;> simp at hsize <;> omega⟩
  obtain ⟨fb, hfb⟩ := riffBlock_accepts mSRSF (data := f) (by have := file_data_short hf; omega)
  obtain ⟨tb, htb⟩ := mapM_ok (l := ts) (f := fun (x : Nat × TrackData) => (do
      let t := if big then { x.2 with flags := x.2.flags ||| 4 } else x.2
      let d ← trackSerialize t
      riffBlock mSRST d : Res Bytes)) (by
    rintro ⟨n, t⟩ hm
    obtain ⟨_, hn, hfl⟩ := tracksOf_small hts _ hm
    have hdata := hts.data n t hm
    have hlen := trackBytes_le parts n
    obtain ⟨d, hd⟩ := (track_data_accepted_iff (if big then { t with flags := t.flags ||| 4 } else t)).2 (by
      subst hdata
      cases big
      · simp at hsize
        refine ⟨by simp [trackOf], ?_, ?_, by simp [trackOf], by simp [trackOf], ?_⟩
        · dsimp only at hn ⊢; simp only [Bool.false_eq_true, if_false]; omega
        · simp only [Bool.false_eq_true, if_false, trackOf]
          rw [if_neg (by decide)]; omega
        · simp only [Bool.false_eq_true, if_false, trackOf, List.length_take]; omega
      · simp at hsize
        refine ⟨by simp [trackOf], ?_, ?_, by simp [trackOf], by simp [trackOf], ?_⟩
        · dsimp only at hn ⊢; simp only [if_true]; omega
        · simp only [if_true, trackOf]
          rw [if_pos (by decide)]; omega
        · simp only [if_true, trackOf, List.length_take]; omega)
    obtain ⟨b, hb⟩ := riffBlock_accepts mSRST (data := d) (by have := track_data_short hd; omega)
    exact ⟨b, by dsimp only; rw [hd, ok_bind, hb]⟩)
  have hchunks : aviSrsChunks app name (aviBytes parts).length (crc32 (aviBytes parts) 0).toNat ts big =
      .ok (fb ++ tb.flatten) := by
    unfold aviSrsChunks
    rw [hf, ok_bind, hfb, ok_bind]
    have : (ts.mapM fun (_, t) => (do
      let t := if big then { t with flags := t.flags ||| 4 } else t
      let d ← trackSerialize t
      riffBlock mSRST d : Res Bytes)) = .ok tb := htb
    rw [this]
    rfl
  obtain ⟨f', ds, _, _, _, hb⟩ := srsChunks_ok (tracksOf_small hts) hchunks
  rw [hb] at hchunks
  refine ⟨storedBytes .srs (withOwn (ownParts f' ds) parts), ?_⟩
  unfold srsAviCreate
  rw [if_neg (by cases big <;> simp at hsize ⊢ <;> omega), hprof, ok_bind]
  dsimp only
  rw [if_neg hne]
  exact aviCreate_ok hok hchunks

/-! ### Samples whose SRS cannot be used -/

theorem create_fold_nomovi {own : Res Bytes} {parts : List AviPart} (hok : ∀ p ∈ parts, p.Ok)
    (hm : ∀ p ∈ parts, p.isMovi = false) : ∀ (pos : Nat) (out : Bytes),
    foldGo (aviCreateItem own) out (itemsAt .avi pos parts) = .ok (out ++ storedBytes .srs parts) := by
  induction parts with
  | nil => intro pos out; simp [itemsAt, foldGo, storedBytes]
  | cons p ps ih =>
    intro pos out
    simp only [itemsAt, foldGo]
    rw [create_item (hok p (by simp)), if_neg (by simp [hm p])]
    simp only [ok_bind, if_true]
    rw [ih (fun q hq => hok q (by simp [hq])) (fun q hq => hm q (by simp [hq])), storedBytes_cons, List.append_assoc]

theorem load_skips {s : Option FileData × Tracks} {a rest : List AviPart} (hok : ∀ p ∈ a, p.Ok)
    (hown : ∀ p ∈ a, p.isOwn = false) (ht : ∀ p ∈ a, p.track = none) : ∀ pos, ∃ pos',
    foldGo aviLoadItem s (itemsAt .srs pos (a ++ rest)) = foldGo aviLoadItem s (itemsAt .srs pos' rest) := by
  induction a with
  | nil => intro pos; exact ⟨pos, rfl⟩
  | cons p ps ih =>
    intro pos
    simp only [List.cons_append, itemsAt, foldGo]
    rw [load_part (hok p (by simp)) (hown p (by simp)), ht p (by simp)]
    simp only [ok_bind, Option.isNone_none, if_true]
    exact ih (fun q hq => hok q (by simp [hq])) (fun q hq => hown q (by simp [hq])) (fun q hq => ht q (by simp [hq])) _

/-- C37 needs the list "movi" in front of the data: for every sample without that list, or with a
chunk of a track in front of it, creating the SRS succeeds, but the SRS cannot be read again. -/
theorem avi_movi_needed {app name : Str} {size crc : Nat} {tracks : Tracks} {big : Bool} {a b : List AviPart} {srs : Bytes}
    (hok : ∀ p ∈ a ++ b, p.Ok) (hown : ∀ p ∈ a ++ b, p.isOwn = false)
    (ht : ∀ p ∈ tracks, p.1 = p.2.number ∧ p.2.number < 2 ^ 16 ∧ p.2.flags = 0)
    (ha : ∀ p ∈ a, p.isMovi = false ∧ p.track = none) (hb : b = [] ∨ ∃ t b', b = t :: b' ∧ t.track ≠ none)
    (h : aviCreateSrs app name size crc tracks big (aviBytes (a ++ b)) = .ok srs) :
    aviLoadSrs srs = .error .unboundLocal := by
  have key : ∀ own : List AviPart, (∀ p ∈ own, p.Ok) →
      aviLoadSrs (storedBytes .srs (a ++ withOwn own b)) = .error .unboundLocal := by
    intro own hown'
    have hok' : ∀ p ∈ a ++ withOwn own b, p.Ok := by
      intro p hp
      rcases List.mem_append.1 hp with hp | hp
      · exact hok p (by simp [hp])
      · exact withOwn_ok hown' (fun q hq => hok q (by simp [hq])) p hp
    unfold aviLoadSrs
    rw [riffWalk_parts hok' (enters_all _ _) (fitsFrom_of_ne (by decide) _ _ _)]
    obtain ⟨pos', h1⟩ := load_skips (s := (none, [])) (rest := withOwn own b) (fun p hp => hok p (by simp [hp]))
      (fun p hp => hown p (by simp [hp])) (fun p hp => (ha p hp).2) 0
    rw [h1]
    rcases hb with rfl | ⟨t, b', rfl, hbt⟩
    · rfl
    · have htm : t.isMovi = false := by
        cases t with
        | list => exact absurd rfl hbt
        | chunk => rfl
      rw [withOwn_cons, htm]
      simp only [Bool.false_eq_true, if_false, List.cons_append, List.nil_append, itemsAt, foldGo]
      rw [load_part (hok t (by simp)) (hown t (by simp))]
      cases htt : t.track with
      | none => exact absurd htt hbt
      | some n => rfl
  have hcreate : ∀ own : List AviPart, aviSrsChunks app name size crc tracks big = .ok (storedBytes .srs own) →
      srs = storedBytes .srs (a ++ withOwn own b) := by
    intro own ho
    rw [aviCreate_ok hok ho] at h
    injection h with h
    rw [← h, withOwn_append, withOwn_none fun p hp => (ha p hp).1]
  cases hc : aviSrsChunks app name size crc tracks big with
  | ok own =>
    obtain ⟨f, ds, _, h2, h3, rfl⟩ := srsChunks_ok ht hc
    rw [hcreate _ hc]
    exact key _ (ownParts_ok h2 h3)
  | error e =>
    by_cases hm : ∃ p ∈ a ++ b, p.isMovi = true
    · rw [aviCreate_error hok hm hc] at h
      simp at h
    · have hm' : ∀ p ∈ a ++ b, p.isMovi = false := fun p hp => by
        cases hh : p.isMovi with
        | false => rfl
        | true => exact absurd ⟨p, hp, hh⟩ hm
      unfold aviCreateSrs at h
      rw [← storedBytes_of_ne_srs (mode := .avi) (by decide),
        riffWalk_parts hok (enters_all _ _) (fitsFrom_of_ne (by decide) _ _ _), create_fold_nomovi hok hm'] at h
      injection h with h
      have := key [] (by simp)
      rw [withOwn_none fun p hp => hm' p (by simp [hp])] at this
      rw [← h]
      exact this

/-! ### The reported CRC -/

theorem riffLoop_inv {σ : Type} {mode : RiffMode} {enter : RiffChunk → Bool} {peek : Bool} {file : Bytes}
    {f : σ → RiffItem → Res (σ × Bool)} (I : σ → Prop) (hf : ∀ s it s' go, I s → f s it = .ok (s', go) → I s') :
    ∀ {fuel pos : Nat} {s s' : σ}, I s → riffLoop mode enter peek file f fuel pos s = .ok s' → I s' := by
  intro fuel
  induction fuel with
  | zero => intro pos s s' _ h; simp [riffLoop] at h
  | succ fuel ih =>
    intro pos s s' hs h
    rw [riffLoop] at h
    simp only [bind_eq_ok] at h
    obtain ⟨x, hn, h⟩ := h
    cases x with
    | none =>
      simp only [pure_eq_ok, Except.ok.injEq] at h
      subst h; exact hs
    | some iq =>
      obtain ⟨it, q⟩ := iq
      dsimp only at h
      simp only [bind_eq_ok] at h
      obtain ⟨⟨s1, go⟩, hf1, h⟩ := h
      have h1 := hf _ _ _ _ hs hf1
      dsimp only at h
      split at h
      · exact ih h1 h
      · split at h
        · simp only [bind_eq_ok, pure_eq_ok, Except.ok.injEq] at h
          obtain ⟨_, _, rfl⟩ := h
          exact h1
        · simp only [pure_eq_ok, Except.ok.injEq] at h
          subst h; exact h1

/-- C37: whatever the SRS and the files, the CRC reported for a rebuilt AVI sample is that of the
bytes written. -/
theorem avi_reported_crc {srs : Bytes} {tracks : Tracks} {files : TrackFiles} {out : Bytes} {crc : BitVec 32}
    (h : aviRebuild srs tracks files = .ok (out, crc)) : crc = crc32 out 0 := by
  unfold aviRebuild at h
  split at h
  · simp at h
  · simp only [bind_eq_ok, pure_eq_ok, Except.ok.injEq, Prod.mk.injEq] at h
    obtain ⟨s, hs, rfl, rfl⟩ := h
    refine riffLoop_inv (fun s : AviRebuild => s.crc = crc32 s.out 0) ?_ (by simp [crc32]) hs
    intro s it s' go hs h
    unfold aviRebuildItem at h
    split at h
    · simp only [Except.ok.injEq, Prod.mk.injEq] at h
      rw [← h.1]; exact hs
    · dsimp only at h
      split at h
      · simp only [Except.ok.injEq, Prod.mk.injEq] at h
        rw [← h.1]
        dsimp only
        rw [hs, crc32_append]
      · simp only [bind_eq_ok] at h
        obtain ⟨⟨buff, files'⟩, _, h⟩ := h
        dsimp only at h
        split at h <;> simp only [pure_eq_ok, Except.ok.injEq, Prod.mk.injEq] at h <;> rw [← h.1] <;> dsimp only <;>
          simp only [hs, crc32_append]

/-! ### Examples -/

/-- A small AVI: headers, a "movi" list with two tracks, odd lengths, and an index. -/
def aviExample : List AviPart :=
  [ .list true 80 [0x41, 0x56, 0x49, 0x20],
    .chunk [0x61, 0x76, 0x69, 0x68] [1, 2, 3] 0,
    .list false 34 [0x6D, 0x6F, 0x76, 0x69],
    .chunk [0x30, 0x30, 0x64, 0x63] [9, 8, 7] 5,
    .chunk [0x30, 0x31, 0x77, 0x62] [4, 4] 0,
    .chunk [0x30, 0x30, 0x64, 0x63] [6] 1,
    .chunk [0x69, 0x64, 0x78, 0x31] [1, 1, 1, 1] 0 ]

theorem aviExample_plain : PlainAvi aviExample :=
  ⟨by decide, by decide, ⟨[_, _], _, _, rfl, by decide, by decide⟩⟩

theorem listsFit_of : ∀ {parts : List AviPart},
    (∀ n < parts.length, ∀ size name, parts[n]? = some (.list false size name) →
      size ≤ 4 + (aviBytes (parts.drop (n + 1))).length) → ListsFit parts := by
  intro parts h a b size name e
  have := h a.length (by rw [e]; simp) size name (by rw [e]; simp)
  rw [e] at this
  simpa using this

theorem aviExample_fits : ListsFit aviExample := by
  apply listsFit_of
  intro n hn size name h
  simp only [aviExample, List.length_cons, List.length_nil] at hn
  match n, hn with
  | 0, _ => simp [aviExample] at h
  | 1, _ => simp [aviExample] at h
  | 2, _ => simp [aviExample] at h; rw [← h.1]; decide
  | 3, _ => simp [aviExample] at h
  | 4, _ => simp [aviExample] at h
  | 5, _ => simp [aviExample] at h
  | 6, _ => simp [aviExample] at h

/-- The hypotheses of `avi_create_succeeds` and `avi_strip_rebuild_partial` are met: an SRS is created, and
the sample comes back. -/
example : ∃ srs, srsAviCreate [0x61] [0x73] (aviBytes aviExample) false none = .ok srs ∧
    aviRebuild srs [(0, {}), (1, {})] (fun n => if n = 0 then some [9, 8, 7, 6, 0xFF] else if n = 1 then some [4, 4] else none)
      = .ok (aviBytes aviExample, crc32 (aviBytes aviExample) 0) := by
  obtain ⟨srs, hs⟩ := avi_create_succeeds (app := [0x61]) (name := [0x73]) (big := false) aviExample_plain.ok aviExample_fits
    ⟨.chunk [0x30, 0x31, 0x77, 0x62] [4, 4] 0, by simp [aviExample], by decide⟩ (by decide)
    (by unfold Encodable; decide) (by unfold Encodable; decide)
  refine ⟨srs, hs, (avi_strip_rebuild_partial aviExample_plain hs).2 _ _ (by decide) ?_⟩
  intro n ⟨p, hp, hpt⟩
  have hn : n = 0 ∨ n = 1 := by
    simp only [aviExample, List.mem_cons, List.not_mem_nil, or_false] at hp
    rcases hp with rfl | rfl | rfl | rfl | rfl | rfl | rfl <;> simp [AviPart.track] at hpt <;> omega
  rcases hn with rfl | rfl
  · exact ⟨⟨_, List.mem_cons_self⟩, [0xFF], by decide⟩
  · exact ⟨⟨_, List.mem_cons_of_mem _ List.mem_cons_self⟩, [], by decide⟩

set_option maxRecDepth 100000 in
/-- The same without the list "movi": the SRS is created and cannot be read. -/
example : (match srsAviCreate [0x61] [0x73]
      (aviBytes (aviExample.filter fun p => !p.isMovi)) false none with
    | .ok srs => aviLoadSrs srs
    | .error _ => .error .other) = .error .unboundLocal := by decide +kernel

def aviOwnExample : List AviPart :=
  [.list false 16 [0x6D, 0x6F, 0x76, 0x69], .chunk [0x30, 0x30, 0x64, 0x63] [9, 8] 0, .chunk [0x53, 0x52, 0x53, 0x54] [] 0]

set_option maxRecDepth 100000 in
/-- C37 is false for samples with chunks that have the name of an SRS chunk: they are not written
back, and the sample that comes out is not the one that went in. -/
theorem avi_own_chunk_lost :
    ∃ parts srs, (∀ p ∈ parts, p.Ok) ∧
      srsAviCreate [0x61] [0x73] (aviBytes parts) false none = .ok srs ∧
      ∃ out crc, aviRebuild srs [(0, {})] (fun _ => some (trackBytes parts 0)) = .ok (out, crc) ∧ out ≠ aviBytes parts := by
  have h : (match srsAviCreate [0x61] [0x73] (aviBytes aviOwnExample) false none with
    | .ok srs => (match aviRebuild srs [(0, {})] (fun _ => some (trackBytes aviOwnExample 0)) with
      | .ok (out, _) => out != aviBytes aviOwnExample
      | .error _ => false)
    | .error _ => false) = true := by decide +kernel
  cases h1 : srsAviCreate [0x61] [0x73] (aviBytes aviOwnExample) false none with
  | error e => rw [h1] at h; simp at h
  | ok srs =>
    rw [h1] at h
    dsimp only at h
    cases h2 : aviRebuild srs [(0, {})] (fun _ => some (trackBytes aviOwnExample 0)) with
    | error e => rw [h2] at h; simp at h
    | ok r =>
      rw [h2] at h
      exact ⟨aviOwnExample, srs, by decide, h1, r.1, r.2, h2, by simpa using h⟩

end Rescene.Props
