import Verif.Lemmas.Riff
import Verif.Lemmas.StreamSrs
/-
Creating, loading and rebuilding on sequences of AVI parts.
-/
namespace Rescene
open Spec

/-! ### Tracks -/

def trackKeys (l : Tracks) : List Nat := l.map (·.1)

theorem getNew_mem {l : Tracks} {n : Nat} {t : TrackData} (hd : l.Pairwise (fun a b => a.1 ≠ b.1)) (h : (n, t) ∈ l) :
    l.getNew n = { t with number := n } := by
  induction l with
  | nil => simp at h
  | cons p l ih =>
    obtain ⟨k, x⟩ := p
    rw [List.pairwise_cons] at hd
    unfold Tracks.getNew
    rcases List.mem_cons.1 h with h' | h'
    · simp only [Prod.mk.injEq] at h'
      obtain ⟨rfl, rfl⟩ := h'
      simp
    · have hk : k ≠ n := hd.1 _ h'
      rw [List.find?_cons]
      simp only [beq_eq_false_iff_ne.mpr hk]
      exact ih hd.2 h'

theorem getNew_not_mem {l : Tracks} {n : Nat} (h : n ∉ trackKeys l) : l.getNew n = { number := n } := by
  unfold Tracks.getNew
  rw [List.find?_eq_none.2]
  intro p hp
  simp only [beq_iff_eq]
  rintro rfl
  exact h (List.mem_map.2 ⟨p, hp, rfl⟩)

theorem mem_put {l : Tracks} {n : Nat} {t : TrackData} (hd : l.Pairwise (fun a b => a.1 ≠ b.1)) {p : Nat × TrackData} :
    p ∈ l.put n t ↔ p = (n, t) ∨ (p ∈ l ∧ p.1 ≠ n) := by
  induction l with
  | nil => simp [Tracks.put]
  | cons q l ih =>
    obtain ⟨k, x⟩ := q
    rw [List.pairwise_cons] at hd
    rw [Tracks.put]
    split
    · rename_i hk
      subst hk
      simp only [List.mem_cons]
      constructor
      · rintro (h | h)
        · exact Or.inl h
        · exact Or.inr ⟨Or.inr h, fun e => hd.1 p h e.symm⟩
      · rintro (h | ⟨h | h, hne⟩)
        · exact Or.inl h
        · subst h; exact absurd rfl hne
        · exact Or.inr h
    · rename_i hk
      simp only [List.mem_cons, ih hd.2]
      constructor
      · rintro (h | h | ⟨h, hne⟩)
        · subst h; exact Or.inr ⟨Or.inl rfl, hk⟩
        · exact Or.inl h
        · exact Or.inr ⟨Or.inr h, hne⟩
      · rintro (h | ⟨h | h, hne⟩)
        · exact Or.inr (Or.inl h)
        · exact Or.inl h
        · exact Or.inr (Or.inr ⟨h, hne⟩)

theorem keys_put (l : Tracks) (n : Nat) (t : TrackData) :
    trackKeys (l.put n t) = if n ∈ trackKeys l then trackKeys l else trackKeys l ++ [n] := by
  induction l with
  | nil => simp [Tracks.put, trackKeys]
  | cons q l ih =>
    obtain ⟨k, x⟩ := q
    rw [Tracks.put]
    split
    · rename_i hk
      subst hk
      simp [trackKeys]
    · rename_i hk
      have e : ∀ l : Tracks, trackKeys ((k, x) :: l) = k :: trackKeys l := fun _ => rfl
      rw [e, e, ih]
      have : (n ∈ k :: trackKeys l) = (n ∈ trackKeys l) := by
        simp only [List.mem_cons, eq_iff_iff]
        constructor
        · rintro (h | h)
          · exact absurd h.symm hk
          · exact h
        · exact Or.inr
      simp only [this]
      split <;> simp

theorem pairwise_keys {l : Tracks} : l.Pairwise (fun a b => a.1 ≠ b.1) ↔ (trackKeys l).Nodup := by
  rw [trackKeys, List.Nodup, List.pairwise_map]

theorem pairwise_put {l : Tracks} {n : Nat} {t : TrackData} (hd : l.Pairwise (fun a b => a.1 ≠ b.1)) :
    (l.put n t).Pairwise (fun a b => a.1 ≠ b.1) := by
  rw [pairwise_keys] at hd ⊢
  rw [keys_put]
  split
  · exact hd
  · rename_i h
    rw [List.nodup_append]
    refine ⟨hd, by simp, ?_⟩
    intro a ha b hb
    simp only [List.mem_singleton] at hb
    subst hb
    rintro rfl
    exact h ha

theorem sum_put (l : Tracks) (n : Nat) (t : TrackData) :
    ((l.put n t).map (·.2.dataLength)).sum + (l.getNew n).dataLength = (l.map (·.2.dataLength)).sum + t.dataLength := by
  induction l with
  | nil => simp [Tracks.put, Tracks.getNew]
  | cons q l ih =>
    obtain ⟨k, x⟩ := q
    rw [Tracks.put]
    split
    · rename_i hk
      subst hk
      simp [Tracks.getNew]; omega
    · rename_i hk
      have e : Tracks.getNew ((k, x) :: l) n = Tracks.getNew l n := by
        unfold Tracks.getNew
        rw [List.find?_cons]
        simp only [beq_eq_false_iff_ne.mpr hk]
      rw [e]
      simp only [List.map_cons, List.sum_cons]
      omega

/-! ### Profile -/

/-- What is known of a track with these bytes. -/
def trackOf (b : Bytes) (n : Nat) : TrackData := { number := n, dataLength := b.length, sig := b.take 256 }

/-- The tracks that the profile of these parts gives. -/
structure TracksOf (parts : List AviPart) (ts : Tracks) : Prop where
  distinct : ts.Pairwise (fun a b => a.1 ≠ b.1)
  keys : ∀ n, n ∈ trackKeys ts ↔ ∃ p ∈ parts, p.track = some n
  data : ∀ n t, (n, t) ∈ ts →
    t = trackOf (trackBytes parts n) n

theorem trackBytes_append (a b : List AviPart) (n : Nat) : trackBytes (a ++ b) n = trackBytes a n ++ trackBytes b n := by
  simp [trackBytes]

theorem trackBytes_single_of_ne {p : AviPart} {n : Nat} (h : p.track ≠ some n) : trackBytes [p] n = [] := by
  cases p with
  | list => simp [trackBytes]
  | chunk id data pad => simp [trackBytes, h]

theorem trackBytes_single {id data : Bytes} {pad : UInt8} {n : Nat} (h : (AviPart.chunk id data pad).track = some n) :
    trackBytes [.chunk id data pad] n = data := by simp [trackBytes, h]

theorem trackBytes_none {parts : List AviPart} {n : Nat} (h : ∀ p ∈ parts, p.track ≠ some n) : trackBytes parts n = [] := by
  induction parts with
  | nil => rfl
  | cons p ps ih =>
    rw [show p :: ps = [p] ++ ps from rfl, trackBytes_append, trackBytes_single_of_ne (h p (by simp)),
      ih fun q hq => h q (by simp [hq])]
    rfl

theorem TracksOf.same {parts : List AviPart} {ts : Tracks} (h : TracksOf parts ts) {p : AviPart} (hp : p.track = none) :
    TracksOf (parts ++ [p]) ts := by
  refine ⟨h.distinct, fun n => ?_, fun n t hm => ?_⟩
  · rw [h.keys]
    constructor
    · rintro ⟨q, hq, ht⟩; exact ⟨q, by simp [hq], ht⟩
    · rintro ⟨q, hq, ht⟩
      rcases List.mem_append.1 hq with hq | hq
      · exact ⟨q, hq, ht⟩
      · simp only [List.mem_singleton] at hq
        subst hq
        rw [hp] at ht
        simp at ht
  · rw [h.data n t hm, trackBytes_append, trackBytes_single_of_ne (by simp [hp]), List.append_nil]

theorem TracksOf.getNew {parts : List AviPart} {ts : Tracks} (h : TracksOf parts ts) (n : Nat) :
    ts.getNew n = trackOf (trackBytes parts n) n := by
  by_cases hk : n ∈ trackKeys ts
  · obtain ⟨⟨k, t⟩, hm, hn⟩ := List.mem_map.1 hk
    dsimp only at hn
    subst hn
    rw [getNew_mem h.distinct hm, h.data k t hm]
    rfl
  · rw [getNew_not_mem hk]
    have : trackBytes parts n = [] := trackBytes_none fun p hp ht => hk ((h.keys n).2 ⟨p, hp, ht⟩)
    rw [this]
    rfl

theorem take_more (a b : Bytes) (k : Nat) :
    (if (a.take k).length < k then a.take k ++ b.take (min k ((a.take k).length + b.length) - (a.take k).length) else a.take k)
      = (a ++ b).take k := by
  rw [List.take_append]
  split
  · rename_i h
    simp only [List.length_take] at h
    have e : a.take k = a := List.take_of_length_le (by omega)
    rw [e]
    congr 1
    by_cases hl : a.length + b.length ≤ k
    · rw [Nat.min_eq_right hl, List.take_of_length_le (by omega), List.take_of_length_le (by omega)]
    · rw [Nat.min_eq_left (by omega)]
  · rename_i h
    simp only [List.length_take] at h
    rw [show k - a.length = 0 by omega]
    simp

theorem take_more' (a b : Bytes) (n : Nat) :
    (if (trackOf a n).sig.length < 256 then
      (trackOf a n).sig ++ b.take (min 256 ((trackOf a n).sig.length + b.length) - (trackOf a n).sig.length)
      else (trackOf a n).sig) = (a ++ b).take 256 := take_more a b 256

theorem TracksOf.add {parts : List AviPart} {ts : Tracks} (h : TracksOf parts ts) {id data : Bytes} {pad : UInt8} {n : Nat}
    (hp : (AviPart.chunk id data pad).track = some n) :
    TracksOf (parts ++ [.chunk id data pad]) (ts.put n (trackOf (trackBytes parts n ++ data) n)) := by
  refine ⟨pairwise_put h.distinct, fun k => ?_, fun k t hm => ?_⟩
  · rw [keys_put]
    have e : (∃ p ∈ parts ++ [AviPart.chunk id data pad], p.track = some k) ↔ k ∈ trackKeys ts ∨ k = n := by
      rw [h.keys]
      constructor
      · rintro ⟨q, hq, ht⟩
        rcases List.mem_append.1 hq with hq | hq
        · exact Or.inl ⟨q, hq, ht⟩
        · simp only [List.mem_singleton] at hq
          subst hq
          rw [hp] at ht
          simp at ht
          exact Or.inr ht.symm
      · rintro (⟨q, hq, ht⟩ | rfl)
        · exact ⟨q, by simp [hq], ht⟩
        · exact ⟨_, by simp, hp⟩
    rw [e]
    split
    · rename_i hk
      constructor
      · exact Or.inl
      · rintro (hk' | rfl)
        · exact hk'
        · exact hk
    · simp
  · rw [mem_put h.distinct] at hm
    rcases hm with hm | ⟨hm, hne⟩
    · simp only [Prod.mk.injEq] at hm
      obtain ⟨rfl, rfl⟩ := hm
      rw [trackBytes_append, trackBytes_single hp]
    · dsimp only at hne
      rw [h.data k t hm, trackBytes_append,
        trackBytes_single_of_ne (fun ht => hne (by rw [hp] at ht; simpa using ht.symm)), List.append_nil]

theorem padding_eq (data : Bytes) (pad : UInt8) :
    padding data pad = (if data.length % 2 = 1 then some pad else none : Option UInt8).toList := by
  unfold padding
  split <;> rfl

theorem profile_item {parts : List AviPart} {p : AviPart} (hok : p.Ok) {s : AviProfile} {pos : Nat}
    (ht : TracksOf parts s.tracks) :
    ∃ s', aviProfileItem s (p.item .sample pos) = .ok (s', true) ∧ TracksOf (parts ++ [p]) s'.tracks ∧
      s'.crc = crc32 p.bytes s.crc ∧
      s'.other + (s'.tracks.map (·.2.dataLength)).sum = s.other + (s.tracks.map (·.2.dataLength)).sum + p.bytes.length := by
  cases p with
  | list riff size name =>
    refine ⟨_, rfl, ht.same rfl, rfl, ?_⟩
    simp only [AviPart.item, AviPart.bytes]
    omega
  | chunk id data pad =>
    have hk := kindOf_movi (data := data) (pad := pad) hok.1
    have ei : (AviPart.chunk id data pad).item .sample pos = ⟨⟨kindOf id, id, [], data.length, id ++ le 4 data.length, pos⟩,
      data, if data.length % 2 = 1 then some pad else none⟩ := by simp [AviPart.item]
    cases htr : (AviPart.chunk id data pad).track with
    | none =>
      have hkm : kindOf id ≠ .movi := fun h => by rw [hk, htr] at h; simp at h
      refine ⟨⟨crc32 (AviPart.chunk id data pad).bytes s.crc,
        s.other + (AviPart.chunk id data pad).bytes.length, s.tracks⟩, ?_, ht.same htr, rfl, by dsimp only; omega⟩
      unfold aviProfileItem
      rw [ei]
      dsimp only
      rw [if_neg (kindOf_ne_list id), if_neg hkm]
      dsimp only
      by_cases hodd : data.length % 2 = 1
      · rw [if_pos hodd]
        simp only [AviPart.bytes, padding, hodd, if_true, crc32_append, List.length_append, List.length_singleton]
        congr 3
        omega
      · rw [if_neg hodd]
        simp only [AviPart.bytes, padding, hodd, if_false, crc32_append, List.length_append, List.append_nil]
        congr 3
        omega
    | some n =>
      have hkm : kindOf id = .movi := hk.2 (by rw [htr]; rfl)
      have hst := stream_of_track (mode := .sample) (start := pos) htr
      have hsum := sum_put s.tracks n (trackOf (trackBytes parts n ++ data) n)
      rw [ht.getNew n] at hsum
      obtain ⟨ts', hts'⟩ : ∃ ts', ts' = s.tracks.put n (trackOf (trackBytes parts n ++ data) n) := ⟨_, rfl⟩
      rw [← hts'] at hsum
      simp only [trackOf, List.length_append] at hsum
      refine ⟨⟨crc32 (AviPart.chunk id data pad).bytes s.crc,
        s.other + 8 + (padding data pad).length, s.tracks.put n (trackOf (trackBytes parts n ++ data) n)⟩, ?_,
          ht.add htr, rfl, ?_⟩
      · unfold aviProfileItem
        rw [hst, ei]
        dsimp only
        rw [if_neg (kindOf_ne_list id), if_pos hkm]
        rw [ht.getNew n]
        rw [take_more']
        by_cases hodd : data.length % 2 = 1
        · rw [if_pos hodd]
          simp only [AviPart.bytes, padding, hodd, if_true, crc32_append, List.length_append, List.length_singleton,
            le_length, hok.1, trackOf]
        · rw [if_neg hodd]
          simp only [AviPart.bytes, padding, hodd, if_false, crc32_append, List.length_append, List.append_nil,
            le_length, hok.1, List.length_nil, Nat.add_zero, trackOf]
      · rw [← hts']
        simp only [AviPart.bytes, List.length_append, le_length, hok.1]
        omega

theorem profile_fold {rest : List AviPart} : ∀ {parts : List AviPart} {s : AviProfile} {pos : Nat},
    (∀ p ∈ rest, p.Ok) → TracksOf parts s.tracks →
    ∃ s', foldGo aviProfileItem s (itemsAt .sample pos rest) = .ok s' ∧ TracksOf (parts ++ rest) s'.tracks ∧
      s'.crc = crc32 (aviBytes rest) s.crc ∧
      s'.other + (s'.tracks.map (·.2.dataLength)).sum =
        s.other + (s.tracks.map (·.2.dataLength)).sum + (aviBytes rest).length := by
  induction rest with
  | nil =>
    intro parts s pos _ ht
    exact ⟨s, rfl, by simpa using ht, by simp [aviBytes, crc32], by simp [aviBytes]⟩
  | cons p ps ih =>
    intro parts s pos hok ht
    obtain ⟨s1, h1, h2, h3, h4⟩ := profile_item (pos := pos) (hok p (by simp)) ht
    obtain ⟨s2, g1, g2, g3, g4⟩ := ih (parts := parts ++ [p]) (s := s1) (pos := pos + (p.stored .sample).length)
      (fun q hq => hok q (by simp [hq])) h2
    have eb : aviBytes (p :: ps) = p.bytes ++ aviBytes ps := by simp [aviBytes]
    refine ⟨s2, ?_, by simpa using g2, ?_, ?_⟩
    · simp only [itemsAt, foldGo, h1, ok_bind, if_true]
      exact g1
    · rw [g3, h3, eb, crc32_append]
    · rw [g4, h4, eb, List.length_append]; omega

theorem tracksOf_nil : TracksOf [] [] := ⟨List.Pairwise.nil, by simp [trackKeys], by simp⟩

theorem profileItem_go (s : AviProfile) (it : RiffItem) (s' : AviProfile) (go : Bool)
    (h : aviProfileItem s it = .ok (s', go)) : go = true := by
  unfold aviProfileItem at h
  dsimp only at h
  split at h
  · simp at h; exact h.2
  · split at h <;> · simp at h; exact h.2

theorem enters_all (mode : RiffMode) (parts : List AviPart) : Enters mode (fun _ => true) parts := fun _ _ _ _ => rfl

/-- The profile of a sample, when it is accepted. -/
theorem aviProfile_ok {parts : List AviPart} (hok : ∀ p ∈ parts, p.Ok) {crc : BitVec 32} {ts : Tracks}
    (h : aviProfile (aviBytes parts) = .ok (crc, ts)) : crc = crc32 (aviBytes parts) 0 ∧ TracksOf parts ts := by
  unfold aviProfile at h
  simp only [bind_eq_ok] at h
  obtain ⟨s, hs, h⟩ := h
  have hfit := sample_loop_fits (pre := []) profileItem_go hok (enters_all .sample parts) hs
  rw [← storedBytes_of_ne_srs (mode := .sample) (by decide), List.nil_append] at hfit
  rw [← storedBytes_of_ne_srs (mode := .sample) (by decide), riffWalk_parts hok (enters_all _ _) hfit] at hs
  obtain ⟨s', h1, h2, h3, _⟩ := profile_fold (pos := 0) (s := ⟨0, 0, []⟩) hok tracksOf_nil
  rw [h1] at hs
  injection hs with hs
  subst hs
  split at h
  · simp at h
  · simp only [pure_eq_ok, Except.ok.injEq, Prod.mk.injEq] at h
    obtain ⟨rfl, rfl⟩ := h
    exact ⟨h3, h2⟩

theorem fitsFrom_of_listsFit {parts : List AviPart} : ∀ {pre : List AviPart}, ListsFit (pre ++ parts) →
    (∀ p ∈ pre ++ parts, p.Ok) →
    FitsFrom .sample (aviBytes (pre ++ parts)).length (aviBytes pre).length parts := by
  induction parts with
  | nil => intro _ _ _; trivial
  | cons p ps ih =>
    intro pre h hok
    have e : pre ++ p :: ps = (pre ++ [p]) ++ ps := by simp
    refine ⟨?_, ?_⟩
    · cases p with
      | chunk => trivial
      | list riff size name =>
        cases riff with
        | true => trivial
        | false =>
          intro _
          have := h pre ps size name rfl
          have h4 := (hok (.list false size name) (by simp)).2
          simp only [aviBytes, List.flatMap_append, List.flatMap_cons, List.length_append] at this ⊢
          simp only [AviPart.bytes, listId, List.length_append, le_length, h4, List.length_cons, List.length_nil,
            Bool.false_eq_true, if_false]
          omega
    · rw [stored_of_ne_srs (by decide), e, show (aviBytes pre).length + p.bytes.length = (aviBytes (pre ++ [p])).length by
        simp [aviBytes]]
      exact ih (by rw [← e]; exact h) (by rw [← e]; exact hok)

theorem aviProfile_accepts {parts : List AviPart} (hok : ∀ p ∈ parts, p.Ok) (hfit : ListsFit parts) :
    ∃ ts, aviProfile (aviBytes parts) = .ok (crc32 (aviBytes parts) 0, ts) ∧ TracksOf parts ts := by
  have hf := fitsFrom_of_listsFit (pre := []) hfit hok
  obtain ⟨s', h1, h2, h3, h4⟩ := profile_fold (pos := 0) (s := ⟨0, 0, []⟩) hok tracksOf_nil
  refine ⟨s'.tracks, ?_, h2⟩
  unfold aviProfile
  rw [List.nil_append, ← storedBytes_of_ne_srs (mode := .sample) (by decide)] at hf
  have e := riffWalk_parts (f := aviProfileItem) (s := ⟨0, 0, []⟩) (peek := false) hok (enters_all .sample parts) hf
  rw [storedBytes_of_ne_srs (by decide)] at e
  rw [e, h1, ok_bind, if_neg]
  · rw [h3]; rfl
  · rw [h4]; simp

/-! ### The SRS -/

/-- The parts of the SRS before the stream data is left out. -/
def withOwn (own parts : List AviPart) : List AviPart := parts.flatMap fun p => if p.isMovi then p :: own else [p]

theorem withOwn_cons (own : List AviPart) (p : AviPart) (ps : List AviPart) :
    withOwn own (p :: ps) = (if p.isMovi then p :: own else [p]) ++ withOwn own ps := by simp [withOwn]

theorem withOwn_append (own a b : List AviPart) : withOwn own (a ++ b) = withOwn own a ++ withOwn own b := by
  simp [withOwn]

theorem withOwn_none {own a : List AviPart} (h : ∀ p ∈ a, p.isMovi = false) : withOwn own a = a := by
  induction a with
  | nil => rfl
  | cons p ps ih =>
    rw [withOwn_cons, h p (by simp), ih fun q hq => h q (by simp [hq])]
    rfl

theorem create_item {own : Res Bytes} {p : AviPart} (hok : p.Ok) (pos : Nat) (out : Bytes) :
    aviCreateItem own out (p.item .avi pos) =
      if p.isMovi then (do let b ← own; return (out ++ (p.stored .srs ++ b), true))
      else .ok (out ++ p.stored .srs, true) := by
  cases p with
  | list riff size name =>
    unfold aviCreateItem
    simp only [AviPart.item, if_true]
    have : ((if riff = true then cRIFF else cLIST) = cLIST ∧ name = cMovi) ↔ (AviPart.list riff size name).isMovi = true := by
      cases riff <;> simp [AviPart.isMovi, cRIFF, cLIST, cMovi]
    by_cases hm : (AviPart.list riff size name).isMovi = true
    · simp only [this, hm, if_true]
      simp only [AviPart.stored, AviPart.bytes, List.append_assoc]
    · simp only [this, hm, Bool.false_eq_true, if_false]
      rfl
  | chunk id data pad =>
    have hk := kindOf_movi (data := data) (pad := pad) hok.1
    rw [if_neg (by simp [AviPart.isMovi])]
    have ei : (AviPart.chunk id data pad).item .avi pos = ⟨⟨kindOf id, id, [], data.length, id ++ le 4 data.length, pos⟩,
      data, if data.length % 2 = 1 then some pad else none⟩ := by simp [AviPart.item]
    unfold aviCreateItem
    rw [ei]
    dsimp only
    rw [if_neg (kindOf_ne_list id)]
    congr 2
    simp only [AviPart.stored, AviPart.bytes, true_and, padding_eq]
    by_cases h : (AviPart.chunk id data pad).track.isSome = true
    · rw [if_pos (hk.2 h), if_pos h]; simp
    · rw [if_neg (fun h' => h (hk.1 h')), if_neg h]; simp

theorem create_fold {own : List AviPart} {parts : List AviPart} (hok : ∀ p ∈ parts, p.Ok) : ∀ (pos : Nat) (out : Bytes),
    foldGo (aviCreateItem (.ok (storedBytes .srs own))) out (itemsAt .avi pos parts) =
      .ok (out ++ storedBytes .srs (withOwn own parts)) := by
  induction parts with
  | nil => intro pos out; simp [itemsAt, foldGo, storedBytes, withOwn]
  | cons p ps ih =>
    intro pos out
    simp only [itemsAt, foldGo]
    rw [create_item (hok p (by simp)), withOwn_cons]
    by_cases hm : p.isMovi = true
    · rw [if_pos hm, if_pos hm]
      simp only [ok_bind, pure_eq_ok, if_true]
      rw [ih (fun q hq => hok q (by simp [hq])), storedBytes_append, storedBytes_cons]
      simp
    · rw [if_neg hm, if_neg hm]
      simp only [ok_bind, if_true]
      rw [ih (fun q hq => hok q (by simp [hq])), storedBytes_append, storedBytes_cons]
      simp [storedBytes]

theorem create_fold_error {e : Err} {parts : List AviPart} (hok : ∀ p ∈ parts, p.Ok) (hm : ∃ p ∈ parts, p.isMovi = true) :
    ∀ (pos : Nat) (out : Bytes), foldGo (aviCreateItem (.error e)) out (itemsAt .avi pos parts) = .error e := by
  induction parts with
  | nil => obtain ⟨p, hp, _⟩ := hm; simp at hp
  | cons p ps ih =>
    intro pos out
    simp only [itemsAt, foldGo]
    rw [create_item (hok p (by simp))]
    by_cases h : p.isMovi = true
    · rw [if_pos h]; rfl
    · rw [if_neg h]
      simp only [ok_bind, if_true]
      refine ih (fun q hq => hok q (by simp [hq])) ?_ _ _
      obtain ⟨q, hq, hqm⟩ := hm
      rcases List.mem_cons.1 hq with rfl | hq
      · exact absurd hqm h
      · exact ⟨q, hq, hqm⟩

theorem aviCreate_ok {app name : Str} {size crc : Nat} {tracks : Tracks} {big : Bool} {parts own : List AviPart}
    (hok : ∀ p ∈ parts, p.Ok) (hb : aviSrsChunks app name size crc tracks big = .ok (storedBytes .srs own)) :
    aviCreateSrs app name size crc tracks big (aviBytes parts) = .ok (storedBytes .srs (withOwn own parts)) := by
  unfold aviCreateSrs
  rw [← storedBytes_of_ne_srs (mode := .avi) (by decide),
    riffWalk_parts hok (enters_all _ _) (fitsFrom_of_ne (by decide) _ _ _), hb, create_fold hok, List.nil_append]

theorem aviCreate_error {app name : Str} {size crc : Nat} {tracks : Tracks} {big : Bool} {parts : List AviPart} {e : Err}
    (hok : ∀ p ∈ parts, p.Ok) (hm : ∃ p ∈ parts, p.isMovi = true) (hb : aviSrsChunks app name size crc tracks big = .error e) :
    aviCreateSrs app name size crc tracks big (aviBytes parts) = .error e := by
  unfold aviCreateSrs
  rw [← storedBytes_of_ne_srs (mode := .avi) (by decide),
    riffWalk_parts hok (enters_all _ _) (fitsFrom_of_ne (by decide) _ _ _), hb, create_fold_error hok hm]

/-! ### Our chunks -/

def ownParts (f : Bytes) (ds : List Bytes) : List AviPart := .chunk mSRSF f 0 :: ds.map fun d => .chunk mSRST d 0

/-- What is stored of the tracks, and how it reads back. -/
inductive OwnTracks (big : Bool) : Tracks → List Bytes → Prop
  | nil : OwnTracks big [] []
  | cons {p : Nat × TrackData} {ts : Tracks} {d : Bytes} {ds : List Bytes} :
      trackParse d = .ok (readTrack big p.2) → p.1 = p.2.number → d.length < 2 ^ 32 → OwnTracks big ts ds →
      OwnTracks big (p :: ts) (d :: ds)

theorem flagged_parse {big : Bool} {t : TrackData} {d : Bytes} (hlt : t.number < 2 ^ 16) (hfl : t.flags = 0)
    (hd : trackSerialize (if big then { t with flags := t.flags ||| 4 } else t) = .ok d) :
    trackParse d = .ok (readTrack big t) := by
  have e : (if big = true then { t with flags := t.flags ||| 4 } else t) =
      { t with flags := if big then t.flags ||| 4 else t.flags } := by cases big <;> rfl
  rw [e] at hd
  have := Props.track_data_small_number { t with flags := if big then t.flags ||| 4 else t.flags } hlt
    (by dsimp only; rw [hfl]; cases big <;> simp) d [] hd
  rw [List.append_nil] at this
  exact this

theorem riffBlock_ok {marker data b : Bytes} (hm : marker.length = 4) (hi : (AviPart.chunk marker data 0).track = none)
    (h : riffBlock marker data = .ok b) : data.length < 2 ^ 32 ∧ b = (AviPart.chunk marker data 0).stored .srs := by
  unfold riffBlock at h
  simp only [bind_eq_ok, pack_eq_ok, pure_eq_ok, Except.ok.injEq] at h
  obtain ⟨_, ⟨hl, rfl⟩, rfl⟩ := h
  refine ⟨hl, ?_⟩
  simp only [AviPart.stored, hi, Option.isSome_none, Bool.false_eq_true, and_false, if_false, AviPart.bytes, padding,
    List.length_append, le_length, hm]
  by_cases h2 : data.length % 2 = 1
  · rw [if_pos (by omega), if_pos h2]; simp
  · rw [if_neg (by omega), if_neg h2]; simp

theorem own_track_none (d : Bytes) (pad : UInt8) : (AviPart.chunk mSRST d pad).track = none := rfl
theorem own_file_none (d : Bytes) (pad : UInt8) : (AviPart.chunk mSRSF d pad).track = none := rfl

theorem own_ok_track {d : Bytes} {pad : UInt8} (h : d.length < 2 ^ 32) : (AviPart.chunk mSRST d pad).Ok :=
  ⟨rfl, by decide, by decide, by decide, h⟩
theorem own_ok_file {d : Bytes} {pad : UInt8} (h : d.length < 2 ^ 32) : (AviPart.chunk mSRSF d pad).Ok :=
  ⟨rfl, by decide, by decide, by decide, h⟩

theorem own_tracks_stored {big : Bool} {tracks : Tracks} : ∀ {tb : List Bytes},
    (∀ p ∈ tracks, p.1 = p.2.number ∧ p.2.number < 2 ^ 16 ∧ p.2.flags = 0) →
    tracks.mapM (fun (x : Nat × TrackData) => do
      let t := if big then { x.2 with flags := x.2.flags ||| 4 } else x.2
      let d ← trackSerialize t
      riffBlock mSRST d) = .ok tb →
    ∃ ds, OwnTracks big tracks ds ∧ tb.flatten = storedBytes .srs (ds.map fun d => .chunk mSRST d 0) := by
  induction tracks with
  | nil =>
    intro tb _ h
    simp at h; subst h
    exact ⟨[], .nil, rfl⟩
  | cons p ts ih =>
    intro tb hp h
    rw [mapM_ok_cons] at h
    obtain ⟨x, xs, h1, h2, rfl⟩ := h
    simp only [bind_eq_ok] at h1
    obtain ⟨d, hd, hb⟩ := h1
    obtain ⟨hn, hlt, hfl⟩ := hp p (by simp)
    obtain ⟨hl, rfl⟩ := riffBlock_ok rfl (own_track_none _ _) hb
    obtain ⟨ds, hds, he⟩ := ih (fun q hq => hp q (by simp [hq])) h2
    refine ⟨d :: ds, .cons (flagged_parse hlt hfl hd) hn hl hds, ?_⟩
    rw [List.flatten_cons, he, List.map_cons, storedBytes_cons]

theorem srsChunks_ok {app name : Str} {size crc : Nat} {tracks : Tracks} {big : Bool} {b : Bytes}
    (ht : ∀ p ∈ tracks, p.1 = p.2.number ∧ p.2.number < 2 ^ 16 ∧ p.2.flags = 0)
    (h : aviSrsChunks app name size crc tracks big = .ok b) :
    ∃ f ds, fileParse f = .ok ⟨3, app, basename name, size, crc % 2 ^ 32⟩ ∧ f.length < 2 ^ 32 ∧ OwnTracks big tracks ds ∧
      b = storedBytes .srs (ownParts f ds) := by
  unfold aviSrsChunks at h
  simp only [bind_eq_ok, pure_eq_ok, Except.ok.injEq] at h
  obtain ⟨f, hf, fb, hfb, tb, htb, rfl⟩ := h
  obtain ⟨hl, rfl⟩ := riffBlock_ok rfl (own_file_none _ _) hfb
  obtain ⟨ds, hds, he⟩ := own_tracks_stored (big := big) ht (by rw [← htb])
  have := Props.file_data_round_trip hf []
  rw [List.append_nil] at this
  exact ⟨f, ds, this, hl, hds, by rw [ownParts, storedBytes_cons, he]⟩

theorem OwnTracks.short {big : Bool} {tracks : Tracks} {ds : List Bytes} (hd : OwnTracks big tracks ds) {d : Bytes}
    (hm : d ∈ ds) : d.length < 2 ^ 32 := by
  induction hd with
  | nil => simp at hm
  | cons _ _ hl _ ih =>
    rcases List.mem_cons.1 hm with rfl | hm
    · exact hl
    · exact ih hm

theorem ownParts_ok {big : Bool} {tracks : Tracks} {f : Bytes} {ds : List Bytes} (hf : f.length < 2 ^ 32)
    (hd : OwnTracks big tracks ds) : ∀ p ∈ ownParts f ds, p.Ok := by
  intro p hp
  rcases List.mem_cons.1 hp with rfl | hp
  · exact own_ok_file hf
  · obtain ⟨d, hm, rfl⟩ := List.mem_map.1 hp
    exact own_ok_track (hd.short hm)

theorem withOwn_ok {own parts : List AviPart} (ho : ∀ p ∈ own, p.Ok) (hp : ∀ p ∈ parts, p.Ok) :
    ∀ p ∈ withOwn own parts, p.Ok := by
  intro p h
  simp only [withOwn, List.mem_flatMap] at h
  obtain ⟨q, hq, h⟩ := h
  split at h
  · rcases List.mem_cons.1 h with rfl | h
    · exact hp _ hq
    · exact ho p h
  · simp only [List.mem_singleton] at h
    subst h
    exact hp _ hq

/-! ### Loading -/

theorem put_same {l : Tracks} {n : Nat} {t : TrackData} (hd : l.Pairwise (fun a b => a.1 ≠ b.1)) (h : (n, t) ∈ l) :
    l.put n t = l := by
  induction l with
  | nil => simp at h
  | cons q l ih =>
    obtain ⟨k, x⟩ := q
    rw [List.pairwise_cons] at hd
    rw [Tracks.put]
    rcases List.mem_cons.1 h with h | h
    · simp only [Prod.mk.injEq] at h
      obtain ⟨rfl, rfl⟩ := h
      simp
    · have hk : ¬ k = n := hd.1 _ h
      rw [if_neg hk, ih hd.2 h]

theorem load_own_track {s : Option FileData × Tracks} {d : Bytes} {pos : Nat} {t : TrackData} (h : trackParse d = .ok t) :
    aviLoadItem s ((AviPart.chunk mSRST d 0).item .srs pos) = .ok ((s.1, s.2.put t.number t), true) := by
  have e : (AviPart.chunk mSRST d 0).item .srs pos = ⟨⟨.unknown, mSRST, [], d.length, mSRST ++ le 4 d.length, pos⟩, d,
      if d.length % 2 = 1 then some 0 else none⟩ := rfl
  unfold aviLoadItem
  rw [e]
  dsimp only
  rw [if_neg (by decide), if_neg (by decide), if_pos rfl, h]
  rfl

theorem load_own_file {s : Option FileData × Tracks} {d : Bytes} {pos : Nat} {f : FileData} (h : fileParse d = .ok f) :
    aviLoadItem s ((AviPart.chunk mSRSF d 0).item .srs pos) = .ok ((some f, s.2), true) := by
  have e : (AviPart.chunk mSRSF d 0).item .srs pos = ⟨⟨.unknown, mSRSF, [], d.length, mSRSF ++ le 4 d.length, pos⟩, d,
      if d.length % 2 = 1 then some 0 else none⟩ := rfl
  unfold aviLoadItem
  rw [e]
  dsimp only
  rw [if_neg (by decide), if_pos rfl, h]
  rfl

theorem load_own_new {big : Bool} {tracks : Tracks} {ds : List Bytes} (hd : OwnTracks big tracks ds) (rest : List AviPart)
    (f : Option FileData) : ∀ (acc : Tracks) (pos : Nat), (acc ++ tracks).Pairwise (fun a b => a.1 ≠ b.1) →
    ∃ pos', foldGo aviLoadItem (f, acc) (itemsAt .srs pos (ds.map (fun d => .chunk mSRST d 0) ++ rest)) =
      foldGo aviLoadItem (f, acc ++ tracks.map fun p => (p.1, readTrack big p.2)) (itemsAt .srs pos' rest) := by
  induction hd with
  | nil => intro acc pos _; exact ⟨pos, by simp⟩
  | @cons p ts d ds hpar hn hl hd ih =>
    intro acc pos hpw
    have e : acc.put (readTrack big p.2).number (readTrack big p.2) = acc ++ [(p.1, readTrack big p.2)] := by
      rw [put_new]
      · simp [readTrack, hn]
      · intro q hq he
        have := (List.pairwise_append.1 hpw).2.2 q hq p (by simp)
        exact this (he.trans hn.symm)
    simp only [List.map_cons, List.cons_append, itemsAt, foldGo]
    rw [load_own_track hpar]
    simp only [ok_bind, if_true]
    rw [e]
    obtain ⟨pos', h⟩ := ih (acc ++ [(p.1, readTrack big p.2)]) (pos + ((AviPart.chunk mSRST d 0).stored .srs).length) (by
      rw [List.append_assoc]
      rw [List.pairwise_append] at hpw ⊢
      refine ⟨hpw.1, ?_, ?_⟩
      · have := hpw.2.1
        rw [List.pairwise_cons] at this
        rw [List.singleton_append, List.pairwise_cons]
        exact this
      · intro a ha b hb
        rcases List.mem_cons.1 hb with rfl | hb
        · exact hpw.2.2 a ha p (by simp)
        · exact hpw.2.2 a ha b (List.mem_cons_of_mem _ hb))
    exact ⟨pos', by rw [h]; simp⟩

theorem load_own_again {big : Bool} {tracks : Tracks} {ds : List Bytes} (hd : OwnTracks big tracks ds) (rest : List AviPart)
    (f : Option FileData) {acc : Tracks} (hacc : acc.Pairwise (fun a b => a.1 ≠ b.1)) : ∀ (pos : Nat),
    (∀ p ∈ tracks, (p.1, readTrack big p.2) ∈ acc) →
    ∃ pos', foldGo aviLoadItem (f, acc) (itemsAt .srs pos (ds.map (fun d => .chunk mSRST d 0) ++ rest)) =
      foldGo aviLoadItem (f, acc) (itemsAt .srs pos' rest) := by
  induction hd with
  | nil => intro pos _; exact ⟨pos, by simp⟩
  | @cons p ts d ds hpar hn hl hd ih =>
    intro pos hin
    have e : acc.put (readTrack big p.2).number (readTrack big p.2) = acc := by
      have := hin p (by simp)
      rw [hn] at this
      exact put_same hacc this
    simp only [List.map_cons, List.cons_append, itemsAt, foldGo]
    rw [load_own_track hpar]
    simp only [ok_bind, if_true]
    rw [e]
    exact ih _ fun q hq => hin q (by simp [hq])

/-- A part of the sample changes nothing. -/
theorem load_part {s : Option FileData × Tracks} {p : AviPart} {pos : Nat} (hok : p.Ok) (hown : p.isOwn = false) :
    aviLoadItem s (p.item .srs pos) = .ok (s, p.track.isNone) := by
  cases p with
  | list => rfl
  | chunk id data pad =>
    have hk := kindOf_movi (data := data) (pad := pad) hok.1
    simp only [AviPart.isOwn, Bool.or_eq_false_iff, beq_eq_false_iff_ne] at hown
    unfold aviLoadItem
    have e1 : ((AviPart.chunk id data pad).item .srs pos).chunk.kind = kindOf id := rfl
    have e2 : ((AviPart.chunk id data pad).item .srs pos).chunk.fourcc = id := rfl
    rw [e1, e2, if_neg (kindOf_ne_list id), if_neg (show ¬ id = mSRSF from hown.1), if_neg (show ¬ id = mSRST from hown.2)]
    by_cases h : kindOf id = .movi
    · rw [if_pos h]
      have := hk.1 h
      cases ht : (AviPart.chunk id data pad).track with
      | none => rw [ht] at this; simp at this
      | some n => rfl
    · rw [if_neg h]
      cases ht : (AviPart.chunk id data pad).track with
      | none => rfl
      | some n => exact absurd (hk.2 (by rw [ht]; rfl)) h

theorem load_done {big : Bool} {tracks : Tracks} {ds : List Bytes} {f : Bytes} {fd : FileData}
    (hd : OwnTracks big tracks ds) (hf : fileParse f = .ok fd) (hpw : tracks.Pairwise (fun a b => a.1 ≠ b.1))
    {parts : List AviPart} (hok : ∀ p ∈ parts, p.Ok) (hown : ∀ p ∈ parts, p.isOwn = false) : ∀ (pos : Nat),
    foldGo aviLoadItem (some fd, tracks.map fun p => (p.1, readTrack big p.2))
      (itemsAt .srs pos (withOwn (ownParts f ds) parts)) =
      .ok (some fd, tracks.map fun p => (p.1, readTrack big p.2)) := by
  induction parts with
  | nil => intro pos; rfl
  | cons p ps ih =>
    intro pos
    rw [withOwn_cons]
    have ih := ih (fun q hq => hok q (by simp [hq])) (fun q hq => hown q (by simp [hq]))
    by_cases hm : p.isMovi = true
    · have ht : p.track = none := by
        cases p with
        | list => rfl
        | chunk => simp [AviPart.isMovi] at hm
      simp only [hm, if_true, ownParts, List.cons_append, itemsAt, foldGo]
      rw [load_part (hok p (by simp)) (hown p (by simp)), ht]
      simp only [ok_bind, Option.isNone_none, if_true]
      rw [load_own_file hf]
      simp only [ok_bind, if_true]
      obtain ⟨pos', h⟩ := load_own_again hd (withOwn (ownParts f ds) ps) (some fd)
        (acc := tracks.map fun p => (p.1, readTrack big p.2)) (by rw [List.pairwise_map]; exact hpw)
        (pos + (p.stored .srs).length + ((AviPart.chunk mSRSF f 0).stored .srs).length)
        (fun q hq => List.mem_map.2 ⟨q, hq, rfl⟩)
      exact h.trans (ih pos')
    · simp only [hm, Bool.false_eq_true, if_false, List.cons_append, List.nil_append, itemsAt, foldGo]
      rw [load_part (hok p (by simp)) (hown p (by simp))]
      simp only [ok_bind]
      split
      · exact ih _
      · rfl

theorem load_fold {big : Bool} {tracks : Tracks} {ds : List Bytes} {f : Bytes} {fd : FileData}
    (hd : OwnTracks big tracks ds) (hf : fileParse f = .ok fd) (hpw : tracks.Pairwise (fun a b => a.1 ≠ b.1))
    {m : AviPart} {b : List AviPart} (hm : m.isMovi = true) {a : List AviPart} (hok : ∀ p ∈ a ++ m :: b, p.Ok)
    (hown : ∀ p ∈ a ++ m :: b, p.isOwn = false) (ha : ∀ p ∈ a, p.track = none) : ∀ (pos : Nat),
    foldGo aviLoadItem (none, []) (itemsAt .srs pos (withOwn (ownParts f ds) (a ++ m :: b))) =
      .ok (some fd, tracks.map fun p => (p.1, readTrack big p.2)) := by
  have key : ∀ (p : AviPart) (ps : List AviPart), p.isMovi = true → (∀ q ∈ p :: ps, q.Ok) →
      (∀ q ∈ p :: ps, q.isOwn = false) → ∀ pos,
      foldGo aviLoadItem (none, []) (itemsAt .srs pos (withOwn (ownParts f ds) (p :: ps))) =
        .ok (some fd, tracks.map fun p => (p.1, readTrack big p.2)) := by
    intro p ps hm hok hown pos
    have ht : p.track = none := by
      cases p with
      | list => rfl
      | chunk => simp [AviPart.isMovi] at hm
    rw [withOwn_cons]
    simp only [hm, if_true, ownParts, List.cons_append, itemsAt, foldGo]
    rw [load_part (hok p (by simp)) (hown p (by simp)), ht]
    simp only [ok_bind, Option.isNone_none, if_true]
    rw [load_own_file hf]
    simp only [ok_bind, if_true]
    obtain ⟨pos', h⟩ := load_own_new hd (withOwn (ownParts f ds) ps) (some fd) []
      (pos + (p.stored .srs).length + ((AviPart.chunk mSRSF f 0).stored .srs).length) (by simpa using hpw)
    rw [List.nil_append] at h
    exact h.trans (load_done hd hf hpw (fun q hq => hok q (by simp [hq])) (fun q hq => hown q (by simp [hq])) pos')
  induction a with
  | nil => exact key m b hm hok hown
  | cons p ps ih =>
    intro pos
    by_cases hpm : p.isMovi = true
    · exact key p _ hpm hok hown pos
    · rw [List.cons_append, withOwn_cons]
      simp only [hpm, Bool.false_eq_true, if_false, List.cons_append, List.nil_append, itemsAt, foldGo]
      rw [load_part (hok p (by simp)) (hown p (by simp)), ha p (by simp)]
      simp only [ok_bind, Option.isNone_none, if_true]
      exact ih (fun q hq => hok q (by simp at hq ⊢; exact Or.inr hq)) (fun q hq => hown q (by simp at hq ⊢; exact Or.inr hq))
        (fun q hq => ha q (by simp [hq])) _

/-! ### Rebuilding -/

theorem rebuild_own {tracks : Tracks} {s : AviRebuild} {f : Bytes} {ds : List Bytes} (rest : List AviPart) : ∀ (pos : Nat),
    ∃ pos', foldGo (aviRebuildItem tracks) s (itemsAt .srs pos (ownParts f ds ++ rest)) =
      foldGo (aviRebuildItem tracks) s (itemsAt .srs pos' rest) := by
  have key : ∀ ds : List Bytes, ∀ pos, ∃ pos',
      foldGo (aviRebuildItem tracks) s (itemsAt .srs pos (ds.map (fun d => AviPart.chunk mSRST d 0) ++ rest)) =
        foldGo (aviRebuildItem tracks) s (itemsAt .srs pos' rest) := by
    intro ds
    induction ds with
    | nil => intro pos; exact ⟨pos, rfl⟩
    | cons d ds ih =>
      intro pos
      obtain ⟨pos', h⟩ := ih (pos + ((AviPart.chunk mSRST d 0).stored .srs).length)
      refine ⟨pos', ?_⟩
      simp only [List.map_cons, List.cons_append, itemsAt, foldGo]
      have e : aviRebuildItem tracks s ((AviPart.chunk mSRST d 0).item .srs pos) = .ok (s, true) := by
        unfold aviRebuildItem
        exact if_pos (Or.inr rfl)
      rw [e]
      simp only [ok_bind, if_true]
      exact h
  intro pos
  obtain ⟨pos', h⟩ := key ds (pos + ((AviPart.chunk mSRSF f 0).stored .srs).length)
  refine ⟨pos', ?_⟩
  simp only [ownParts, List.cons_append, itemsAt, foldGo]
  have e : aviRebuildItem tracks s ((AviPart.chunk mSRSF f 0).item .srs pos) = .ok (s, true) := by
    unfold aviRebuildItem
    exact if_pos (Or.inl rfl)
  rw [e]
  simp only [ok_bind, if_true]
  exact h

/-- The files have the data of the tracks in these parts. -/
def HasData (tracks : Tracks) (files : TrackFiles) (parts : List AviPart) : Prop :=
  ∀ n, (∃ p ∈ parts, p.track = some n) → n ∈ trackKeys tracks ∧ ∃ rest, files n = some (trackBytes parts n ++ rest)

theorem rebuild_part {tracks : Tracks} {out : Bytes} {crc : BitVec 32} {files : TrackFiles} {p : AviPart}
    {ps : List AviPart} {pos : Nat} (hok : p.Ok) (hown : p.isOwn = false) (hf : HasData tracks files (p :: ps)) :
    ∃ files', aviRebuildItem tracks ⟨out, crc, files⟩ (p.item .srs pos) =
      .ok (⟨out ++ p.bytes, crc32 p.bytes crc, files'⟩, true) ∧ HasData tracks files' ps := by
  have sub : p.track = none → HasData tracks files ps := by
    intro ht n ⟨q, hq, h⟩
    obtain ⟨h1, rest, h2⟩ := hf n ⟨q, by simp [hq], h⟩
    refine ⟨h1, rest, ?_⟩
    rw [h2, show p :: ps = [p] ++ ps from rfl, trackBytes_append, trackBytes_single_of_ne (by simp [ht]), List.nil_append]
  cases p with
  | list riff size name =>
    refine ⟨files, ?_, sub rfl⟩
    unfold aviRebuildItem
    simp only [AviPart.isOwn, Bool.or_eq_false_iff, beq_eq_false_iff_ne] at hown
    exact if_neg (show ¬ (name = mSRSF ∨ name = mSRST) from fun h => h.elim hown.1 hown.2)
  | chunk id data pad =>
    have hk := kindOf_movi (data := data) (pad := pad) hok.1
    simp only [AviPart.isOwn, Bool.or_eq_false_iff, beq_eq_false_iff_ne] at hown
    cases ht : (AviPart.chunk id data pad).track with
    | none =>
      have ei : (AviPart.chunk id data pad).item .srs pos = ⟨⟨kindOf id, id, [], data.length, id ++ le 4 data.length, pos⟩,
        data, if data.length % 2 = 1 then some pad else none⟩ := by simp [AviPart.item, ht]
      have hkm : kindOf id ≠ .movi := fun h => by rw [hk, ht] at h; simp at h
      refine ⟨files, ?_, sub ht⟩
      unfold aviRebuildItem
      rw [ei]
      dsimp only
      rw [if_neg (show ¬ (id = mSRSF ∨ id = mSRST) from fun h => h.elim hown.1 hown.2), if_neg (kindOf_ne_list id),
        if_neg hkm]
      simp only [ok_bind]
      by_cases hodd : data.length % 2 = 1
      · simp [hodd, AviPart.bytes, padding, crc32_append]
      · simp [hodd, AviPart.bytes, padding, crc32_append]
    | some n =>
      have ei : (AviPart.chunk id data pad).item .srs pos = ⟨⟨kindOf id, id, [], data.length, id ++ le 4 data.length, pos⟩,
        [], if data.length % 2 = 1 then some pad else none⟩ := by simp [AviPart.item, ht]
      have hkm : kindOf id = .movi := hk.2 (by rw [ht]; rfl)
      have hst := stream_of_track (mode := .srs) (start := pos) ht
      rw [ei] at hst
      dsimp only at hst
      obtain ⟨h1, rest, h2⟩ := hf n ⟨_, by simp, ht⟩
      rw [show AviPart.chunk id data pad :: ps = [.chunk id data pad] ++ ps from rfl, trackBytes_append,
        trackBytes_single ht, List.append_assoc] at h2
      have hany : tracks.any (·.1 == n) = true := by
        obtain ⟨q, hq, hq'⟩ := List.mem_map.1 h1
        exact List.any_eq_true.2 ⟨q, hq, by simp [hq']⟩
      refine ⟨files.set n (trackBytes ps n ++ rest), ?_, ?_⟩
      · unfold aviRebuildItem
        rw [ei]
        dsimp only
        rw [if_neg (show ¬ (id = mSRSF ∨ id = mSRST) from fun h => h.elim hown.1 hown.2), if_neg (kindOf_ne_list id),
          if_pos hkm, hst, if_pos hany, h2]
        simp only [ok_bind]
        by_cases hodd : data.length % 2 = 1
        · simp [hodd, AviPart.bytes, padding, crc32_append]
        · simp [hodd, AviPart.bytes, padding, crc32_append]
      · intro k ⟨q, hq, hqt⟩
        obtain ⟨g1, r, g2⟩ := hf k ⟨q, by simp [hq], hqt⟩
        refine ⟨g1, ?_⟩
        unfold TrackFiles.set
        by_cases hkn : k = n
        · subst hkn; exact ⟨rest, by simp⟩
        · refine ⟨r, ?_⟩
          rw [if_neg hkn, g2, show AviPart.chunk id data pad :: ps = [.chunk id data pad] ++ ps from rfl, trackBytes_append,
            trackBytes_single_of_ne (fun h => hkn (by rw [ht] at h; simpa using h.symm)), List.nil_append]

theorem rebuild_fold {tracks : Tracks} {f : Bytes} {ds : List Bytes} {parts : List AviPart} :
    ∀ {out : Bytes} {crc : BitVec 32} {files : TrackFiles} (pos : Nat),
    (∀ p ∈ parts, p.Ok) → (∀ p ∈ parts, p.isOwn = false) → HasData tracks files parts →
    ∃ files', foldGo (aviRebuildItem tracks) ⟨out, crc, files⟩ (itemsAt .srs pos (withOwn (ownParts f ds) parts)) =
      .ok ⟨out ++ aviBytes parts, crc32 (aviBytes parts) crc, files'⟩ := by
  induction parts with
  | nil => intro out crc files pos _ _ _; exact ⟨files, by simp [withOwn, itemsAt, foldGo, aviBytes, crc32]⟩
  | cons p ps ih =>
    intro out crc files pos hok hown hf
    have eb : aviBytes (p :: ps) = p.bytes ++ aviBytes ps := by simp [aviBytes]
    obtain ⟨files', h1, h2⟩ := rebuild_part (out := out) (crc := crc) (pos := pos) (hok p (by simp)) (hown p (by simp)) hf
    have ih := fun pos => ih (out := out ++ p.bytes) (crc := crc32 p.bytes crc) (files := files') pos
      (fun q hq => hok q (by simp [hq])) (fun q hq => hown q (by simp [hq])) h2
    rw [withOwn_cons]
    by_cases hm : p.isMovi = true
    · simp only [hm, if_true, List.cons_append, itemsAt, foldGo]
      rw [h1]
      simp only [ok_bind, if_true]
      obtain ⟨pos', h3⟩ := rebuild_own (tracks := tracks) (s := ⟨out ++ p.bytes, crc32 p.bytes crc, files'⟩) (f := f) (ds := ds)
        (withOwn (ownParts f ds) ps) (pos + (p.stored .srs).length)
      obtain ⟨files'', h4⟩ := ih pos'
      exact ⟨files'', by rw [h3, h4, eb, crc32_append, List.append_assoc]⟩
    · simp only [hm, Bool.false_eq_true, if_false, List.cons_append, List.nil_append, itemsAt, foldGo]
      rw [h1]
      simp only [ok_bind, if_true]
      obtain ⟨files'', h4⟩ := ih (pos + (p.stored .srs).length)
      exact ⟨files'', by rw [h4, eb, crc32_append, List.append_assoc]⟩

end Rescene
