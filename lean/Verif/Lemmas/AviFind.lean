import Verif.Lemmas.AviSrs
/-
Locating and extracting the tracks of a sample in the movie it was cut from.
-/
namespace Rescene
open Spec

theorem getNew_put (ts : Tracks) (n k : Nat) (t : TrackData) :
    (ts.put n t).getNew k = if k = n then { t with number := n } else ts.getNew k := by
  induction ts with
  | nil =>
    by_cases h : k = n
    · subst h; simp [Tracks.put, Tracks.getNew]
    · have : (n == k) = false := beq_eq_false_iff_ne.mpr fun e => h e.symm
      simp [Tracks.put, Tracks.getNew, this, h]
  | cons q l ih =>
    obtain ⟨m, x⟩ := q
    rw [Tracks.put]
    have e : ∀ (m : Nat) (x : TrackData) (l : Tracks), Tracks.getNew ((m, x) :: l) k =
        if m = k then { x with number := k } else l.getNew k := by
      intro m x l
      by_cases h : m = k
      · subst h; simp [Tracks.getNew]
      · have : (m == k) = false := beq_eq_false_iff_ne.mpr h
        simp only [Tracks.getNew, List.find?_cons, this, h, if_false]
    split
    · rename_i hm
      subst hm
      rw [e, e]
      by_cases h : k = m
      · subst h; simp
      · rw [if_neg (fun e => h e.symm), if_neg h, if_neg (fun e => h e.symm)]
    · rename_i hm
      rw [e, e, ih]
      by_cases h : m = k
      · subst h; simp [hm]
      · simp [h]

theorem trackBytes_cons (p : AviPart) (ps : List AviPart) (n : Nat) :
    trackBytes (p :: ps) n = trackBytes [p] n ++ trackBytes ps n := trackBytes_append [p] ps n

theorem fromPlace_append (a b : Movie) (n : Nat) : fromPlace (a ++ b) n = fromPlace a n ++ fromPlace b n := by
  simp [fromPlace]

theorem fromPlace_cons (p : AviPart × Nat) (ps : Movie) (n : Nat) :
    fromPlace (p :: ps) n = fromPlace [p] n ++ fromPlace ps n := fromPlace_append [p] ps n

theorem fromPlace_single_of_ne {p : AviPart} {k n : Nat} (h : p.track ≠ some n) : fromPlace [(p, k)] n = [] := by
  cases p with
  | list => simp [fromPlace]
  | chunk id data pad => simp [fromPlace, h]

theorem fromPlace_single {id data : Bytes} {pad : UInt8} {k n : Nat} (h : (AviPart.chunk id data pad).track = some n) :
    fromPlace [(.chunk id data pad, k)] n = data.drop k := by simp [fromPlace, h]

theorem placeOf_append_nil {a b : Movie} {n : Nat} (h : fromPlace a n = []) : ∀ pos,
    placeOf pos (a ++ b) n = placeOf (pos + (aviBytes a.parts).length) b n := by
  induction a with
  | nil => intro pos; simp [aviBytes, Movie.parts]
  | cons p ps ih =>
    intro pos
    rw [fromPlace_cons, List.append_eq_nil_iff] at h
    rw [List.cons_append, placeOf, if_neg (by simp [h.1]), ih h.2]
    congr 1
    simp [aviBytes, Movie.parts]; omega

theorem fromPlace_short {p : AviPart × Nat} {n : Nat} (hok : p.1.Ok) (h : fromPlace [p] n ≠ []) : 8 + p.2 < p.1.bytes.length := by
  obtain ⟨p, k⟩ := p
  cases p with
  | list => simp [fromPlace] at h
  | chunk id data pad =>
    by_cases ht : (AviPart.chunk id data pad).track = some n
    · rw [fromPlace_single ht] at h
      have h4 := hok.1
      dsimp only [AviPart.bytes]
      have : k < data.length := by
        apply Classical.byContradiction
        intro hh
        exact h (List.drop_eq_nil_iff.2 (by omega))
      simp [h4]
      omega
    · exact absurd (fromPlace_single_of_ne ht) h

theorem placeOf_le {a b : Movie} {n : Nat} (h : fromPlace a n ≠ []) (hok : ∀ p ∈ a, p.1.Ok) : ∀ pos,
    0 < placeOf pos (a ++ b) n ∧ placeOf pos (a ++ b) n ≤ pos + (aviBytes a.parts).length := by
  induction a with
  | nil => exact absurd rfl h
  | cons p ps ih =>
    intro pos
    rw [List.cons_append, placeOf]
    have e : (aviBytes (Movie.parts (p :: ps))).length = p.1.bytes.length + (aviBytes (Movie.parts ps)).length := by
      simp [aviBytes, Movie.parts]
    split
    · rename_i hp
      have := fromPlace_short (hok p (by simp)) hp
      omega
    · rename_i hp
      rw [fromPlace_cons] at h
      simp only [ne_eq, Classical.not_not] at hp
      rw [hp, List.nil_append] at h
      have := ih h (fun q hq => hok q (by simp [hq])) (pos + p.1.bytes.length)
      omega

theorem placeOf_ge {b : Movie} {n : Nat} (h : fromPlace b n ≠ []) : ∀ pos, pos + 8 ≤ placeOf pos b n := by
  induction b with
  | nil => exact absurd rfl h
  | cons p ps ih =>
    intro pos
    rw [placeOf]
    split
    · omega
    · rename_i hp
      simp only [ne_eq, Classical.not_not] at hp
      rw [fromPlace_cons, hp, List.nil_append] at h
      have := ih h (pos + p.1.bytes.length)
      omega

/-! ### Locating -/

/-- The state while the tracks are located, behind the parts `done`. -/
structure FindInv (sample : List AviPart) (movie : Movie) (K : Nat → Prop) (done : Movie) (ts : Tracks) : Prop where
  distinct : ts.Pairwise (fun a b => a.1 ≠ b.1)
  sub : ∀ n ∈ trackKeys ts, K n
  sup : ∀ n, (∃ p ∈ sample, p.track = some n) → n ∈ trackKeys ts
  sig : ∀ n, (ts.getNew n).sig = (trackBytes sample n).take 256
  len : ∀ n, (ts.getNew n).dataLength = (trackBytes sample n).length
  idle : ∀ n, trackBytes sample n = [] ∨ fromPlace done n = [] →
    (trackBytes sample n = [] → (ts.getNew n).matchOffset = 0) ∧ (ts.getNew n).matchLength = 0 ∧ (ts.getNew n).checkBytes = []
  found : ∀ n, trackBytes sample n ≠ [] → fromPlace done n ≠ [] →
    (ts.getNew n).matchOffset = placeOf 0 movie n ∧
    (ts.getNew n).checkBytes = (fromPlace done n).take ((trackBytes sample n).take 256).length

/-- The way `aviFind` looks at a part. -/
def findStep (file : Bytes) (ts : Tracks) (it : RiffItem) : Res (Tracks × Bool) :=
  if it.chunk.kind = .movi then aviFindMovi file ts it else .ok (ts, true)

theorem not_movi_of_track_none {p : AviPart} {mode : RiffMode} {pos : Nat} (hok : p.Ok) (h : p.track = none) :
    (p.item mode pos).chunk.kind ≠ .movi := by
  cases p with
  | list => simp [AviPart.item]
  | chunk id data pad =>
    intro hk
    have := (kindOf_movi (data := data) (pad := pad) hok.1).1 hk
    rw [h] at this
    simp at this

theorem avi_item {id data : Bytes} {pad : UInt8} {pos : Nat} :
    (AviPart.chunk id data pad).item .avi pos = ⟨⟨kindOf id, id, [], data.length, id ++ le 4 data.length, pos⟩,
      data, if data.length % 2 = 1 then some pad else none⟩ := by simp [AviPart.item]

theorem keys_put_mem {ts : Tracks} {n k : Nat} {t : TrackData} : k ∈ trackKeys (ts.put n t) ↔ k ∈ trackKeys ts ∨ k = n := by
  rw [keys_put]
  split
  · rename_i h
    constructor
    · exact Or.inl
    · rintro (h' | rfl)
      · exact h'
      · exact h
  · simp

/-- Replacing the entry of a track. -/
theorem FindInv.put {sample : List AviPart} {movie : Movie} {K : Nat → Prop} {done : Movie} {ts : Tracks}
    (h : FindInv sample movie K done ts) {p : AviPart × Nat} {n : Nat} (hn : p.1.track = some n) {t : TrackData} (hK : K n)
    (hsig : t.sig = (trackBytes sample n).take 256) (hlen : t.dataLength = (trackBytes sample n).length)
    (hidle : trackBytes sample n = [] ∨ fromPlace (done ++ [p]) n = [] →
      (trackBytes sample n = [] → t.matchOffset = 0) ∧ t.matchLength = 0 ∧ t.checkBytes = [])
    (hfound : trackBytes sample n ≠ [] → fromPlace (done ++ [p]) n ≠ [] →
      t.matchOffset = placeOf 0 movie n ∧
      t.checkBytes = (fromPlace (done ++ [p]) n).take ((trackBytes sample n).take 256).length) :
    FindInv sample movie K (done ++ [p]) (ts.put n t) := by
  have hother : ∀ k, k ≠ n → fromPlace (done ++ [p]) k = fromPlace done k := by
    intro k hk
    rw [fromPlace_append, fromPlace_single_of_ne, List.append_nil]
    rw [hn]
    simpa using fun e => hk e.symm
  refine ⟨pairwise_put h.distinct, ?_, ?_, ?_, ?_, ?_, ?_⟩
  · intro k hk
    rcases keys_put_mem.1 hk with hk | rfl
    · exact h.sub k hk
    · exact hK
  · intro k hk
    exact keys_put_mem.2 (Or.inl (h.sup k hk))
  · intro k
    rw [getNew_put]
    split
    · rename_i e; subst e; exact hsig
    · exact h.sig k
  · intro k
    rw [getNew_put]
    split
    · rename_i e; subst e; exact hlen
    · exact h.len k
  · intro k hk
    rw [getNew_put]
    split
    · rename_i e; subst e; exact hidle hk
    · rename_i e; rw [hother k e] at hk; exact h.idle k hk
  · intro k h1 h2
    rw [getNew_put]
    split
    · rename_i e; subst e; exact hfound h1 h2
    · rename_i e; rw [hother k e] at h2 ⊢; exact h.found k h1 h2

theorem FindInv.skip {sample : List AviPart} {movie : Movie} {K : Nat → Prop} {done : Movie} {ts : Tracks}
    (h : FindInv sample movie K done ts) {p : AviPart × Nat} (hn : p.1.track = none) :
    FindInv sample movie K (done ++ [p]) ts := by
  have hother : ∀ k, fromPlace (done ++ [p]) k = fromPlace done k := by
    intro k
    rw [fromPlace_append, fromPlace_single_of_ne (by simp [hn]), List.append_nil]
  refine ⟨h.distinct, h.sub, h.sup, h.sig, h.len, fun n hn => h.idle n (by rwa [hother] at hn), fun n h1 h2 => ?_⟩
  rw [hother] at h2 ⊢
  exact h.found n h1 h2

theorem aviScan_none {sig data : Bytes} (h : ∀ i < data.length, ¬ ((data.drop i).take sig.length <+: sig)) :
    aviScan sig data = none := by
  induction data with
  | nil => rfl
  | cons b t ih =>
    rw [aviScan, if_neg, ih]
    · rfl
    · intro i hi
      have := h (i + 1) (by simpa using hi)
      simpa using this
    · rintro ⟨_, hp⟩
      exact h 0 (by simp) (by simpa using List.isPrefixOf_iff_prefix.1 hp)

theorem aviScan_zero {sig data : Bytes} (hd : data ≠ []) (hs : sig ≠ []) (h : data.take sig.length <+: sig) :
    aviScan sig data = some 0 := by
  cases data with
  | nil => exact absurd rfl hd
  | cons b t =>
    rw [aviScan, if_pos]
    refine ⟨?_, List.isPrefixOf_iff_prefix.2 h⟩
    cases sig with
    | nil => exact absurd rfl hs
    | cons c l =>
      simp only [List.length_cons, List.take_succ_cons] at h
      simp [(List.cons_prefix_cons.1 h).1]

theorem aviScan_some {sig : Bytes} (hs : sig ≠ []) : ∀ {k : Nat} {data : Bytes}, data.drop k ≠ [] →
    (∀ i < k, ¬ ((data.drop i).take sig.length <+: sig)) → (data.drop k).take sig.length <+: sig → aviScan sig data = some k
  | 0, data, hd, _, h => aviScan_zero hd hs h
  | k + 1, [], hd, _, _ => absurd rfl hd
  | k + 1, b :: t, hd, hf, h => by
    rw [aviScan, if_neg, aviScan_some hs (k := k) (data := t) hd (fun i hi => by simpa using hf (i + 1) (by omega)) h]
    · rfl
    · rintro ⟨_, hp⟩
      exact hf 0 (by omega) (by simpa using List.isPrefixOf_iff_prefix.1 hp)

theorem take_prefix_of {T a s : Bytes} (ha : a <+: T) (hs : s <+: T) : a.take s.length <+: s := by
  have h1 : a.take s.length <+: T := (List.take_prefix _ _).trans ha
  exact List.prefix_of_prefix_length_le h1 hs (by simp; omega)

theorem stream_avi {id data : Bytes} {pad : UInt8} {pos n : Nat} (h : (AviPart.chunk id data pad).track = some n) :
    RiffChunk.stream ⟨kindOf id, id, [], data.length, id ++ le 4 data.length, pos⟩ = n := by
  have := stream_of_track (mode := .avi) (start := pos) h
  rw [avi_item] at this
  exact this

theorem isPrefixOf_true {a b : Bytes} (h : a <+: b) : a.isPrefixOf b = true := List.isPrefixOf_iff_prefix.2 h

/-- One part of the movie. -/
theorem find_part {sample : List AviPart} {movie : Movie} {K : Nat → Prop} {ts : Tracks} {file : Bytes} {p : AviPart × Nat} {pos : Nat}
    {done rest : Movie} (hmovie : movie = done ++ p :: rest) (hpos : pos = (aviBytes done.parts).length)
    (hcut : CutFrom sample movie) (hK : ∀ n, p.1.track = some n → K n)
    (h : FindInv sample movie K done ts) :
    ∃ ts' go, findStep file ts (p.1.item .avi pos) = .ok (ts', go) ∧ FindInv sample movie K (done ++ [p]) ts' ∧
      (go = false → ∀ x ∈ ts', x.2.dataLength ≤ x.2.matchLength) := by
  obtain ⟨p, k⟩ := p
  dsimp only at hK ⊢
  have hpok : p.Ok := hcut.ok (p, k) (by rw [hmovie]; simp)
  cases ht : p.track with
  | none =>
    refine ⟨ts, true, ?_, h.skip ht, by simp⟩
    unfold findStep
    rw [if_neg (not_movi_of_track_none hpok ht)]
  | some n =>
    cases p with
    | list => simp [AviPart.track] at ht
    | chunk id data pad =>
      have hkm : kindOf id = .movi := (kindOf_movi (data := data) (pad := pad) hpok.1).2 (by rw [ht]; rfl)
      have hsig := h.sig n
      have hlen := h.len n
      have htb : fromPlace (done ++ [(.chunk id data pad, k)]) n = fromPlace done n ++ data.drop k := by
        rw [fromPlace_append, fromPlace_single ht]
      have hTpre : fromPlace done n ++ data.drop k <+: fromPlace movie n := by
        rw [hmovie, show done ++ (AviPart.chunk id data pad, k) :: rest = (done ++ [(.chunk id data pad, k)]) ++ rest by simp,
          fromPlace_append, htb]
        exact List.prefix_append _ _
      have hsigpre : (trackBytes sample n).take 256 <+: fromPlace movie n := (List.take_prefix _ _).trans (hcut.data n)
      unfold findStep
      rw [avi_item]
      dsimp only
      rw [if_pos hkm]
      unfold aviFindMovi
      dsimp only
      rw [stream_avi ht]
      by_cases hs : trackBytes sample n = []
      · -- nothing to find
        obtain ⟨i1, i2, i3⟩ := h.idle n (Or.inl hs)
        rw [if_pos (Or.inl (i1 hs)), if_neg (by rw [hsig, hs]; simp)]
        refine ⟨_, true, rfl, ?_, by simp⟩
        refine h.put ht (hK n ht) hsig hlen (fun _ => ⟨i1, ?_, i3⟩) (fun hh => absurd hs hh)
        dsimp only
        rw [hlen, hs]
        simp
      · have hsne : (ts.getNew n).sig ≠ [] := by
          rw [hsig]
          intro hh
          apply hs
          cases hx : trackBytes sample n with
          | nil => rfl
          | cons b t => rw [hx] at hh; simp at hh
        by_cases hd : fromPlace done n = []
        · -- not found yet
          obtain ⟨i1, i2, i3⟩ := h.idle n (Or.inr hd)
          have hg : decide (0 < (ts.getNew n).checkBytes.length ∧ (ts.getNew n).checkBytes.length < (ts.getNew n).sig.length)
              = false := by rw [i3]; simp
          rw [if_pos (Or.inr (by rw [i3]; exact List.length_pos_iff.2 hsne)), if_pos hsne, hg]
          simp only [Bool.false_eq_true, if_false, i3, if_true, ok_bind]
          have hfresh := hcut.fresh done id data pad k rest n hmovie ht hs
          rw [hd, List.nil_append] at hTpre htb
          by_cases hdat : data.drop k = []
          · rw [show aviScan (ts.getNew n).sig data = none by
              rw [hsig]
              exact aviScan_none fun i hi => hfresh i (by have := List.drop_eq_nil_iff.1 hdat; omega) hi]
            refine ⟨_, true, rfl, ?_, by simp⟩
            refine h.put ht (hK n ht) hsig hlen (fun _ => ⟨i1, i2, i3⟩) (fun _ hh => ?_)
            rw [htb] at hh
            exact absurd hdat hh
          · have hk : k < data.length := by
              apply Classical.byContradiction
              intro hh
              exact hdat (List.drop_eq_nil_iff.2 (by omega))
            rw [aviScan_some hsne hdat (by rw [hsig]; exact fun i hi => hfresh i hi (by omega))
              (by rw [hsig]; exact take_prefix_of hTpre hsigpre)]
            refine ⟨_, true, rfl, ?_, by simp⟩
            refine h.put ht (hK n ht) hsig hlen (fun hh => ?_) (fun _ _ => ?_)
            · rcases hh with hh | hh
              · exact absurd hh hs
              · rw [htb] at hh; exact absurd hh hdat
            · dsimp only
              refine ⟨?_, ?_⟩
              · rw [hmovie, placeOf_append_nil hd, placeOf, if_pos (by rw [fromPlace_single ht]; exact hdat), hpos]
                simp [hpok.1]
              · rw [htb, hsig]
        · -- found before
          have hk0 : k = 0 := hcut.whole done id data pad k rest n hmovie ht hd
          subst hk0
          rw [List.drop_zero] at htb hTpre
          obtain ⟨f1, f2⟩ := h.found n hs hd
          have hbne : fromPlace (done ++ [(.chunk id data pad, 0)]) n ≠ [] := by
            rw [htb]
            intro hh
            exact hd (List.append_eq_nil_iff.1 hh).1
          have hidle : ∀ {t : TrackData}, trackBytes sample n = [] ∨ fromPlace (done ++ [(.chunk id data pad, 0)]) n = [] →
              (trackBytes sample n = [] → t.matchOffset = 0) ∧ t.matchLength = 0 ∧ t.checkBytes = [] := by
            intro t hh
            rcases hh with hh | hh
            · exact absurd hh hs
            · exact absurd hh hbne
          have hoff : 0 < placeOf 0 movie n := by
            rw [hmovie]
            exact (placeOf_le hd (fun q hq => hcut.ok q (by rw [hmovie]; simp [hq])) 0).1
          have hcne : (ts.getNew n).checkBytes ≠ [] := by
            rw [f2]
            intro hh
            rw [← hsig] at hh
            have := congrArg List.length hh
            simp only [List.length_take, List.length_nil] at this
            have h1 := List.length_pos_iff.2 hsne
            have h2 := List.length_pos_iff.2 hd
            omega
          by_cases hc : (ts.getNew n).checkBytes.length < (ts.getNew n).sig.length
          · have hg : decide (0 < (ts.getNew n).checkBytes.length ∧ (ts.getNew n).checkBytes.length < (ts.getNew n).sig.length)
                = true := by
              simp only [decide_eq_true_eq]
              exact ⟨List.length_pos_iff.2 hcne, hc⟩
            rw [if_pos (Or.inr hc), if_pos hsne, hg]
            simp only [if_true]
            have hcb : (ts.getNew n).checkBytes ++ data.take (min (ts.getNew n).sig.length (data.length +
                (ts.getNew n).checkBytes.length) - (ts.getNew n).checkBytes.length) =
                (fromPlace done n ++ data).take ((trackBytes sample n).take 256).length := by
              have := take_more (fromPlace done n) data ((trackBytes sample n).take 256).length
              rw [← f2, if_pos (by rw [← hsig]; exact hc), Nat.add_comm (ts.getNew n).checkBytes.length, ← hsig] at this
              rw [this, hsig]
            rw [hcb]
            have hpre : (fromPlace done n ++ data).take ((trackBytes sample n).take 256).length <+: (ts.getNew n).sig := by
              rw [hsig]; exact take_prefix_of hTpre hsigpre
            rw [if_pos (isPrefixOf_true hpre)]
            dsimp only
            rw [if_neg ?_]
            · refine ⟨_, true, rfl, ?_, by simp⟩
              refine h.put ht (hK n ht) hsig hlen hidle (fun _ _ => ⟨f1, ?_⟩)
              dsimp only
              rw [htb]
            · intro hh
              rw [← hcb] at hh
              exact hcne (List.append_eq_nil_iff.1 hh).1
          · rw [if_neg (by rw [f1]; intro hh; rcases hh with hh | hh; omega; exact hc hh)]
            have hcb : (ts.getNew n).checkBytes = (fromPlace (done ++ [(.chunk id data pad, 0)]) n).take
                ((trackBytes sample n).take 256).length := by
              rw [htb, f2]
              have hle : ((trackBytes sample n).take 256).length ≤ (fromPlace done n).length := by
                rw [f2, hsig, List.length_take (i := ((trackBytes sample n).take 256).length)] at hc
                omega
              rw [List.take_append_of_le_length hle]
            by_cases hm : (ts.getNew n).matchLength < (ts.getNew n).dataLength
            · rw [if_pos hm]
              refine ⟨_, _, rfl, h.put ht (hK n ht) hsig hlen hidle (fun _ _ => ⟨f1, hcb⟩), ?_⟩
              intro hgo x hx
              have := List.any_eq_false.1 hgo x hx
              simpa using this
            · rw [if_neg hm]
              exact ⟨_, true, rfl, h.put ht (hK n ht) hsig hlen hidle (fun _ _ => ⟨f1, hcb⟩), by simp⟩

/-- What locating results in. -/
structure Located (sample : List AviPart) (movie : Movie) (K : Nat → Prop) (ts : Tracks) : Prop where
  distinct : ts.Pairwise (fun a b => a.1 ≠ b.1)
  sub : ∀ n ∈ trackKeys ts, K n
  sup : ∀ n, (∃ p ∈ sample, p.track = some n) → n ∈ trackKeys ts
  sig : ∀ n, (ts.getNew n).sig = (trackBytes sample n).take 256
  len : ∀ n, (ts.getNew n).dataLength = (trackBytes sample n).length
  off : ∀ n, (ts.getNew n).matchOffset = if trackBytes sample n = [] then 0 else (placeOf 0 movie n : Int)

theorem getNew_of_mem {ts : Tracks} (hd : ts.Pairwise (fun a b => a.1 ≠ b.1)) {x : Nat × TrackData} (h : x ∈ ts) :
    ts.getNew x.1 = { x.2 with number := x.1 } := getNew_mem hd h

theorem occurs_of_bytes {parts : List AviPart} {n : Nat} (h : trackBytes parts n ≠ []) : ∃ p ∈ parts, p.track = some n := by
  apply Classical.byContradiction
  intro hh
  exact h (trackBytes_none fun p hp ht => hh ⟨p, hp, ht⟩)

theorem FindInv.located {sample : List AviPart} {movie done : Movie} {K : Nat → Prop} {ts : Tracks}
    (h : FindInv sample movie K done ts) (hall : ∀ n, trackBytes sample n ≠ [] → fromPlace done n ≠ []) :
    Located sample movie K ts := by
  refine ⟨h.distinct, h.sub, h.sup, h.sig, h.len, fun n => ?_⟩
  split
  · rename_i hs
    exact (h.idle n (Or.inl hs)).1 hs
  · rename_i hs
    exact (h.found n hs (hall n hs)).1

theorem FindInv.all_of_stop {sample : List AviPart} {movie done : Movie} {K : Nat → Prop} {ts : Tracks}
    (h : FindInv sample movie K done ts) (hstop : ∀ x ∈ ts, x.2.dataLength ≤ x.2.matchLength) :
    ∀ n, trackBytes sample n ≠ [] → fromPlace done n ≠ [] := by
  intro n hs hd
  obtain ⟨x, hx, rfl⟩ := List.mem_map.1 (h.sup n (occurs_of_bytes hs))
  have h1 := hstop x hx
  have h2 := h.len x.1
  obtain ⟨_, h3, _⟩ := h.idle x.1 (Or.inr hd)
  rw [getNew_of_mem h.distinct hx] at h2 h3
  dsimp only at h2 h3
  have := List.length_pos_iff.2 hs
  omega

theorem Spec.CutFrom.place {sample : List AviPart} {movie : Movie} (hcut : CutFrom sample movie) {n : Nat} (hs : trackBytes sample n ≠ []) :
    fromPlace movie n ≠ [] := by
  intro hh
  have := hcut.data n
  rw [hh] at this
  exact hs (List.prefix_nil.1 this)

theorem parts_snoc (done : Movie) (p : AviPart × Nat) (q : Nat) :
    q + (aviBytes (Movie.parts (done ++ [p]))).length = q + (aviBytes (Movie.parts done)).length + (p.1.stored .avi).length := by
  rw [stored_of_ne_srs (by decide)]; simp [aviBytes, Movie.parts]; omega

theorem find_fold {sample : List AviPart} {movie : Movie} {K : Nat → Prop} {file : Bytes}
    (hcut : CutFrom sample movie) : ∀ {rest done : Movie} {ts : Tracks},
    movie = done ++ rest → (∀ p ∈ rest, ∀ n, p.1.track = some n → K n) → FindInv sample movie K done ts →
    ∃ ts', foldGo (findStep file) ts (itemsAt .avi (0 + (aviBytes done.parts).length) rest.parts) = .ok ts' ∧
      Located sample movie K ts' := by
  intro rest
  induction rest with
  | nil =>
    intro done ts hp _ h
    rw [List.append_nil] at hp
    exact ⟨ts, rfl, h.located fun n hs => by rw [← hp]; exact hcut.place hs⟩
  | cons p rest ih =>
    intro done ts hp hK h
    obtain ⟨ts', go, h1, h2, h3⟩ := find_part (file := file) (pos := 0 + (aviBytes done.parts).length) hp (by omega) hcut (hK p (by simp)) h
    simp only [Movie.parts, List.map_cons, itemsAt, foldGo] at h1 ⊢
    rw [h1]
    simp only [ok_bind]
    cases go with
    | false =>
      simp only [Bool.false_eq_true, if_false]
      exact ⟨ts', rfl, h2.located (h2.all_of_stop (h3 rfl))⟩
    | true =>
      simp only [if_true]
      have := ih (done := done ++ [p]) (by simpa using hp) (fun q hq => hK q (by simp [hq])) h2
      rw [parts_snoc] at this
      exact this

/-! ### Extracting -/

/-- The way `aviExtract` looks at a part. -/
def extractStep (s : Tracks × TrackFiles) (it : RiffItem) : Res ((Tracks × TrackFiles) × Bool) :=
  if it.chunk.kind = .movi then .ok (aviExtractMovi s it) else .ok (s, true)

/-- The state while the tracks are extracted, from behind `a` on. -/
structure ExtractInv (sample : List AviPart) (movie : Movie) (K : Nat → Prop) (done : Movie) (s : Tracks × TrackFiles) :
    Prop where
  loc : Located sample movie K s.1
  empty : ∀ n, trackBytes sample n = [] → (s.2 n).getD [] = []
  none : ∀ n, trackBytes sample n = [] → (∃ p ∈ done, p.1.track = some n) → s.2 n = some []
  before : ∀ n, trackBytes sample n ≠ [] → fromPlace done n = [] → s.2 n = .none
  found : ∀ n, trackBytes sample n ≠ [] → fromPlace done n ≠ [] →
    ∃ f, s.2 n = some f ∧ f <+: fromPlace done n ∧ (f = fromPlace done n ∨ (trackBytes sample n).length ≤ f.length)

theorem Located.put_same {sample : List AviPart} {movie : Movie} {K : Nat → Prop} {ts : Tracks} {n : Nat}
    (h : Located sample movie K ts) (hK : K n) : Located sample movie K (ts.put n (ts.getNew n)) := by
  have e : ts.getNew n = { ts.getNew n with number := n } := by
    unfold Tracks.getNew
    split <;> rfl
  have g : ∀ k, (ts.put n (ts.getNew n)).getNew k = ts.getNew k := by
    intro k
    rw [getNew_put, ← e]
    split
    · rename_i hh; rw [hh]
    · rfl
  refine ⟨pairwise_put h.distinct, ?_, ?_, ?_, ?_, ?_⟩
  · intro k hk
    rcases keys_put_mem.1 hk with hk | rfl
    · exact h.sub k hk
    · exact hK
  · intro k hk
    exact keys_put_mem.2 (Or.inl (h.sup k hk))
  all_goals intro k; rw [g]
  · exact h.sig k
  · exact h.len k
  · exact h.off k

theorem set_same (f : TrackFiles) (n : Nat) (b : Bytes) : f.set n b n = some b := by simp [TrackFiles.set]
theorem set_other (f : TrackFiles) {n k : Nat} (b : Bytes) (h : k ≠ n) : f.set n b k = f k := by simp [TrackFiles.set, h]

theorem extract_part {sample : List AviPart} {movie a : Movie} {K : Nat → Prop} {s : Tracks × TrackFiles} {p : AviPart × Nat} {pos : Nat}
    {done rest : Movie} (hmovie : movie = a ++ (done ++ p :: rest))
    (hpos : pos = (aviBytes a.parts).length + (aviBytes done.parts).length)
    (hcut : CutFrom sample movie) (ha : ∀ n, trackBytes sample n ≠ [] → fromPlace a n = [])
    (hK : ∀ n, p.1.track = some n → K n) (h : ExtractInv sample movie K done s) :
    ∃ s' go, extractStep s (p.1.item .avi pos) = .ok (s', go) ∧ ExtractInv sample movie K (done ++ [p]) s' ∧
      (go = false → ∀ x ∈ s'.1, ∃ b, s'.2 x.1 = some b ∧ x.2.dataLength ≤ b.length) := by
  obtain ⟨ts, fs⟩ := s
  obtain ⟨p, k⟩ := p
  dsimp only at hK ⊢
  have hpok : p.Ok := hcut.ok (p, k) (by rw [hmovie]; simp)
  cases ht : p.track with
  | none =>
    have hother : ∀ m, fromPlace (done ++ [(p, k)]) m = fromPlace done m := by
      intro m
      rw [fromPlace_append, fromPlace_single_of_ne (by simp [ht]), List.append_nil]
    refine ⟨(ts, fs), true, ?_, ⟨h.loc, h.empty, ?_, ?_, ?_⟩, by simp⟩
    · unfold extractStep
      rw [if_neg (not_movi_of_track_none hpok ht)]
    · rintro n hs ⟨q, hq, hqt⟩
      rcases List.mem_append.1 hq with hq | hq
      · exact h.none n hs ⟨q, hq, hqt⟩
      · simp only [List.mem_singleton] at hq
        rw [hq, ht] at hqt
        simp at hqt
    · intro n hs hd
      rw [hother] at hd
      exact h.before n hs hd
    · intro n hs hd
      rw [hother] at hd ⊢
      exact h.found n hs hd
  | some n =>
    cases p with
    | list => simp [AviPart.track] at ht
    | chunk id data pad =>
      have hkm : kindOf id = .movi := (kindOf_movi (data := data) (pad := pad) hpok.1).2 (by rw [ht]; rfl)
      have hoff := h.loc.off n
      have hlen := h.loc.len n
      dsimp only at hoff hlen
      have htb : fromPlace (done ++ [(.chunk id data pad, k)]) n = fromPlace done n ++ data.drop k := by
        rw [fromPlace_append, fromPlace_single ht]
      have hother : ∀ m, m ≠ n → fromPlace (done ++ [(.chunk id data pad, k)]) m = fromPlace done m := by
        intro m hm
        rw [fromPlace_append, fromPlace_single_of_ne, List.append_nil]
        rw [ht]
        simpa using fun e => hm e.symm
      have hdonek : ∀ m, m ≠ n → (∃ q ∈ done ++ [(AviPart.chunk id data pad, k)], q.1.track = some m) → ∃ q ∈ done, q.1.track = some m := by
        rintro m hm ⟨q, hq, hqt⟩
        rcases List.mem_append.1 hq with hq | hq
        · exact ⟨q, hq, hqt⟩
        · simp only [List.mem_singleton] at hq
          rw [hq, ht] at hqt
          simp only [Option.some.injEq] at hqt
          exact absurd hqt.symm hm
      -- the track is there from now on
      obtain ⟨ts1, hts1⟩ : ∃ ts1, ts1 = if ts.any (·.1 == n) then ts else ts.put n (ts.getNew n) := ⟨_, rfl⟩
      have hloc1 : Located sample movie K ts1 := by
        rw [hts1]
        split
        · exact h.loc
        · exact h.loc.put_same (hK n ht)
      have hhl : (id ++ le 4 data.length).length = 8 := by simp [hpok.1]
      have hstop : ∀ (fs : TrackFiles), (ts1.any fun x => match fs x.1 with
            | none => true
            | some b => decide (b.length < x.2.dataLength)) = false →
          ∀ x ∈ ts1, ∃ b, fs x.1 = some b ∧ x.2.dataLength ≤ b.length := by
        intro fs hh x hx
        have := List.any_eq_false.1 hh x hx
        cases hf : fs x.1 with
        | none => rw [hf] at this; simp at this
        | some b =>
          rw [hf] at this
          exact ⟨b, rfl, by simpa using this⟩
      unfold extractStep
      rw [avi_item]
      dsimp only
      rw [if_pos hkm]
      unfold aviExtractMovi
      dsimp only
      rw [stream_avi ht, ← hts1, hhl]
      by_cases hs : trackBytes sample n = []
      · -- a track without data
        rw [if_pos hs] at hoff
        have hl0 : (ts.getNew n).dataLength = 0 := by rw [hlen, hs]; rfl
        rw [if_pos (by rw [hoff]; omega), if_neg (by rw [hl0]; omega)]
        have hf0 := h.empty n hs
        dsimp only at hf0
        rw [hf0]
        refine ⟨_, _, rfl, ⟨hloc1, ?_, ?_, ?_, ?_⟩, hstop _⟩
        · intro m hm
          dsimp only
          by_cases e : m = n
          · subst e
            rw [set_same]; rfl
          · rw [set_other _ _ e]
            exact h.empty m hm
        · intro m hm hex
          dsimp only
          by_cases e : m = n
          · subst e
            rw [set_same]
          · rw [set_other _ _ e]
            exact h.none m hm (hdonek m e hex)
        · intro m hm hd
          have e : m ≠ n := fun e => hm (e ▸ hs)
          rw [hother m e] at hd
          dsimp only
          rw [set_other _ _ e]
          exact h.before m hm hd
        · intro m hm hd
          have e : m ≠ n := fun e => hm (e ▸ hs)
          rw [hother m e] at hd ⊢
          dsimp only
          rw [set_other _ _ e]
          exact h.found m hm hd
      · rw [if_neg hs] at hoff
        have han := ha n hs
        rw [hmovie, placeOf_append_nil han, Nat.zero_add] at hoff
        by_cases hd : fromPlace done n = [] ∧ data.drop k = []
        · -- a chunk before the data
          obtain ⟨hd, hdk⟩ := hd
          have hb : fromPlace rest n ≠ [] := by
            intro hh
            have := hcut.data n
            rw [hmovie, fromPlace_append, fromPlace_append, fromPlace_cons, fromPlace_single ht, han, hd, hdk, hh] at this
            exact hs (List.prefix_nil.1 this)
          have hfo : pos + 8 + data.length < placeOf (aviBytes a.parts).length (done ++ (.chunk id data pad, k) :: rest) n := by
            rw [placeOf_append_nil hd, placeOf, if_neg (by rw [fromPlace_single ht, hdk]; simp), ← hpos]
            have := placeOf_ge hb (pos + (AviPart.chunk id data pad).bytes.length)
            have h8 : 8 + data.length ≤ (AviPart.chunk id data pad).bytes.length := by
              have h4 := hpok.1
              simp [AviPart.bytes, h4]; omega
            dsimp only
            omega
          rw [if_neg (by rw [hoff]; omega)]
          refine ⟨_, _, rfl, ⟨hloc1, h.empty, ?_, ?_, ?_⟩, by simp⟩
          · intro m hm hex
            exact h.none m hm (hdonek m (fun e => hs (e ▸ hm)) hex)
          · intro m hm hd'
            refine h.before m hm ?_
            by_cases e : m = n
            · rw [e]; exact hd
            · rwa [hother m e] at hd'
          · intro m hm hd'
            by_cases e : m = n
            · subst e
              rw [htb, hd, hdk] at hd'
              exact absurd rfl hd'
            · rw [hother m e] at hd' ⊢
              exact h.found m hm hd'
        · -- data of the track
          obtain ⟨o, ho⟩ : ∃ o, o = placeOf (aviBytes a.parts).length (done ++ (.chunk id data pad, k) :: rest) n := ⟨_, rfl⟩
          rw [← ho] at hoff
          have hfo : o < pos + 8 + data.length ∧ (o ≤ pos + 8 ∧ k = 0 ∨ o = pos + 8 + k) := by
            by_cases hd0 : fromPlace done n = []
            · have hda : data.drop k ≠ [] := fun e => hd ⟨hd0, e⟩
              have hk : k < data.length := by
                apply Classical.byContradiction
                intro hh
                exact hda (List.drop_eq_nil_iff.2 (by omega))
              rw [placeOf_append_nil hd0, placeOf, if_pos (by rw [fromPlace_single ht]; exact hda), ← hpos] at ho
              dsimp only at ho
              omega
            · have := placeOf_le (b := (.chunk id data pad, k) :: rest) hd0 (fun q hq => hcut.ok q (by rw [hmovie]; simp [hq]))
                (aviBytes a.parts).length
              have hk0 : k = 0 := hcut.whole (a ++ done) id data pad k rest n (by rw [hmovie]; simp) ht (by
                rw [fromPlace_append, han, List.nil_append]; exact hd0)
              omega
          rw [if_pos (by rw [hoff]; omega)]
          have hdata : (if (pos : Int) + (8 : Nat) ≥ (ts.getNew n).matchOffset then ((fs n).getD []) ++ data
              else ((fs n).getD []) ++ data.drop ((ts.getNew n).matchOffset - ((pos : Int) + (8 : Nat))).toNat) =
              ((fs n).getD []) ++ data.drop k := by
            rw [hoff]
            rcases hfo.2 with ⟨h1, h2⟩ | h1
            · rw [if_pos (by omega), h2, List.drop_zero]
            · by_cases hk0 : k = 0
              · rw [if_pos (by omega), hk0, List.drop_zero]
              · rw [if_neg (by omega)]
                congr 2
                omega
          rw [hdata]
          obtain ⟨f, hf⟩ : ∃ f, f = (if ((fs n).getD []).length < (ts.getNew n).dataLength then (fs n).getD [] ++ data.drop k
              else (fs n).getD []) := ⟨_, rfl⟩
          rw [← hf]
          have hff : f <+: fromPlace done n ++ data.drop k ∧
              (f = fromPlace done n ++ data.drop k ∨ (trackBytes sample n).length ≤ f.length) := by
            by_cases hd0 : fromPlace done n = []
            · have hb := h.before n hs hd0
              dsimp only at hb
              rw [hb, hlen, if_pos (by simpa using List.length_pos_iff.2 hs)] at hf
              rw [hd0, hf]
              exact ⟨List.prefix_refl _, Or.inl rfl⟩
            · obtain ⟨g, hg, hp, hor⟩ := h.found n hs hd0
              dsimp only at hg
              rw [hg, hlen] at hf
              simp only [Option.getD_some] at hf
              split at hf
              · rename_i hl
                rcases hor with hor | hor
                · rw [hf, hor]
                  exact ⟨List.prefix_refl _, Or.inl rfl⟩
                · omega
              · rename_i hl
                rw [hf]
                exact ⟨hp.trans (List.prefix_append _ _), Or.inr (by omega)⟩
          refine ⟨_, _, rfl, ⟨hloc1, ?_, ?_, ?_, ?_⟩, hstop _⟩
          · intro m hm
            dsimp only
            rw [set_other _ _ (fun e : m = n => hs (e ▸ hm))]
            exact h.empty m hm
          · intro m hm hex
            dsimp only
            rw [set_other _ _ (fun e : m = n => hs (e ▸ hm))]
            exact h.none m hm (hdonek m (fun e => hs (e ▸ hm)) hex)
          · intro m hm hd'
            by_cases e : m = n
            · subst e
              rw [htb, List.append_eq_nil_iff] at hd'
              exact absurd hd' hd
            · dsimp only
              rw [set_other _ _ e]
              rw [hother m e] at hd'
              exact h.before m hm hd'
          · intro m hm hd'
            by_cases e : m = n
            · subst e
              dsimp only
              rw [set_same, htb]
              exact ⟨f, rfl, hff⟩
            · dsimp only
              rw [set_other _ _ e]
              rw [hother m e] at hd' ⊢
              exact h.found m hm hd'

/-- What extracting results in. -/
structure Extracted (sample : List AviPart) (s : Tracks × TrackFiles) : Prop where
  distinct : s.1.Pairwise (fun a b => a.1 ≠ b.1)
  sup : ∀ n, (∃ p ∈ sample, p.track = some n) → n ∈ trackKeys s.1
  len : ∀ n, (s.1.getNew n).dataLength = (trackBytes sample n).length
  data : ∀ n ∈ trackKeys s.1, ∃ rest, s.2 n = some (trackBytes sample n ++ rest)

theorem ExtractInv.extracted {sample : List AviPart} {movie a done rest : Movie} {K : Nat → Prop} {s : Tracks × TrackFiles}
    (hmovie : movie = a ++ (done ++ rest)) (hcut : CutFrom sample movie) (ha : ∀ n, trackBytes sample n ≠ [] → fromPlace a n = [])
    (h : ExtractInv sample movie K done s)
    (hall : ∀ n ∈ trackKeys s.1, ∃ b, s.2 n = some b ∧ (trackBytes sample n).length ≤ b.length) : Extracted sample s := by
  refine ⟨h.loc.distinct, h.loc.sup, h.loc.len, fun n hn => ?_⟩
  obtain ⟨b, hb, hl⟩ := hall n hn
  by_cases hs : trackBytes sample n = []
  · exact ⟨b, by rw [hb, hs]; rfl⟩
  · have hd : fromPlace done n ≠ [] := by
      intro hh
      rw [h.before n hs hh] at hb
      simp at hb
    obtain ⟨f, hf, hp, _⟩ := h.found n hs hd
    rw [hf] at hb
    injection hb with hb
    subst hb
    have hfp : f <+: fromPlace movie n := by
      rw [hmovie, fromPlace_append, ha n hs, List.nil_append, fromPlace_append]
      exact hp.trans (List.prefix_append _ _)
    obtain ⟨r, hr⟩ := List.prefix_of_prefix_length_le (hcut.data n) hfp hl
    exact ⟨r, by rw [hf, hr]⟩

theorem extract_fold {sample : List AviPart} {movie a b : Movie} {K : Nat → Prop} (hmovie : movie = a ++ b)
    (hcut : CutFrom sample movie) (ha : ∀ n, trackBytes sample n ≠ [] → fromPlace a n = [])
    (hK : ∀ n, K n → ∃ p ∈ b, p.1.track = some n) : ∀ {rest done : Movie} {s : Tracks × TrackFiles},
    b = done ++ rest → (∀ p ∈ rest, ∀ n, p.1.track = some n → K n) → ExtractInv sample movie K done s →
    ∃ s', foldGo extractStep s (itemsAt .avi ((aviBytes a.parts).length + (aviBytes done.parts).length) rest.parts) = .ok s' ∧
      Extracted sample s' := by
  intro rest
  induction rest with
  | nil =>
    intro done s hp _ h
    refine ⟨s, rfl, h.extracted (by rw [hmovie, hp]) hcut ha fun n hn => ?_⟩
    rw [List.append_nil] at hp
    subst hp
    by_cases hs : trackBytes sample n = []
    · exact ⟨[], h.none n hs (hK n (h.loc.sub n hn)), by simp [hs]⟩
    · have hpl := hcut.data n
      rw [hmovie, fromPlace_append, ha n hs, List.nil_append] at hpl
      have hle := hpl.length_le
      have hd : fromPlace b n ≠ [] := by
        intro hh
        rw [hh] at hle
        exact hs (List.length_eq_zero_iff.1 (by simpa using hle))
      obtain ⟨f, hf, _, hor⟩ := h.found n hs hd
      refine ⟨f, hf, ?_⟩
      rcases hor with rfl | hor
      · exact hle
      · exact hor
  | cons p rest ih =>
    intro done s hp hKr h
    obtain ⟨s', go, h1, h2, h3⟩ := extract_part (by rw [hmovie, hp]) rfl hcut ha (hKr p (by simp)) h
    simp only [Movie.parts, List.map_cons, itemsAt, foldGo] at h1 ⊢
    rw [h1]
    simp only [ok_bind]
    cases go with
    | false =>
      simp only [Bool.false_eq_true, if_false]
      refine ⟨s', rfl, h2.extracted (rest := rest) (by rw [hmovie, hp]; simp) hcut ha fun n hn => ?_⟩
      obtain ⟨x, hx, rfl⟩ := List.mem_map.1 hn
      obtain ⟨b, hb, hl⟩ := h3 rfl x hx
      refine ⟨b, hb, ?_⟩
      have := h2.loc.len x.1
      rw [getNew_of_mem h2.loc.distinct hx] at this
      dsimp only at this
      omega
    | true =>
      simp only [if_true]
      have := ih (done := done ++ [p]) (by simpa using hp) (fun q hq => hKr q (by simp [hq])) h2
      rw [parts_snoc] at this
      exact this

theorem foldl_min {ts : Tracks} {v : Nat} (hge : ∀ x ∈ ts, x.2.matchOffset > 0 → v ≤ x.2.matchOffset.toNat) : ∀ {m : Nat}, v ≤ m →
    (v = m ∨ ∃ x ∈ ts, x.2.matchOffset > 0 ∧ x.2.matchOffset.toNat = v) →
    ts.foldl (fun m t => if t.2.matchOffset > 0 then min t.2.matchOffset.toNat m else m) m = v := by
  induction ts with
  | nil =>
    intro m _ h
    rcases h with h | ⟨x, hx, _⟩
    · exact h.symm
    · simp at hx
  | cons y l ih =>
    intro m hm h
    rw [List.foldl_cons]
    have hy := hge y (by simp)
    apply ih (fun x hx => hge x (by simp [hx]))
    · split
      · rename_i hp; have := hy hp; omega
      · exact hm
    · rcases h with h | ⟨x, hx, hp, hv⟩
      · left
        split
        · rename_i hp; have := hy hp; omega
        · exact h
      · rcases List.mem_cons.1 hx with rfl | hx
        · left
          rw [if_pos hp, hv]; omega
        · exact Or.inr ⟨x, hx, hp, hv⟩

/-- The tracks are extracted. -/
theorem aviExtract_ok {sample : List AviPart} {movie a b : Movie} {K : Nat → Prop} {ts : Tracks} {n0 : Nat} (hmovie : movie = a ++ b)
    (hcut : CutFrom sample movie) (ha : ∀ n, trackBytes sample n ≠ [] → fromPlace a n = [])
    (hKb : ∀ p ∈ b, ∀ n, p.1.track = some n → K n) (hK : ∀ n, K n → ∃ p ∈ b, p.1.track = some n)
    (hloc : Located sample movie K ts) (hlen : (aviBytes movie.parts).length < 2 ^ 63)
    (hn0 : trackBytes sample n0 ≠ []) (hmin : ∀ n, trackBytes sample n ≠ [] → placeOf 0 movie n0 ≤ placeOf 0 movie n)
    (hstart : riffStart (aviBytes movie.parts) (placeOf 0 movie n0) = .ok (aviBytes a.parts).length) :
    ∃ s, aviExtract ts (aviBytes movie.parts) = .ok s ∧ Extracted sample s := by
  have hfile : aviBytes movie.parts = aviBytes a.parts ++ storedBytes .avi b.parts := by
    rw [storedBytes_of_ne_srs (by decide), hmovie]; simp [aviBytes, Movie.parts]
  have hplace : 8 ≤ placeOf 0 movie n0 ∧ placeOf 0 movie n0 ≤ (aviBytes movie.parts).length := by
    have h1 := placeOf_ge (hcut.place hn0) 0
    have h2 := placeOf_le (b := []) (hcut.place hn0) hcut.ok 0
    rw [List.append_nil] at h2
    omega
  have hst : ts.foldl (fun m t => if t.2.matchOffset > 0 then min t.2.matchOffset.toNat m else m) (2 ^ 63) =
      placeOf 0 movie n0 := by
    apply foldl_min
    · intro x hx hp
      have ho := hloc.off x.1
      rw [getNew_of_mem hloc.distinct hx] at ho
      dsimp only at ho
      split at ho
      · omega
      · rename_i hs
        have := hmin x.1 hs
        omega
    · omega
    · right
      obtain ⟨x, hx, rfl⟩ := List.mem_map.1 (hloc.sup n0 (occurs_of_bytes hn0))
      have ho := hloc.off x.1
      rw [getNew_of_mem hloc.distinct hx, if_neg hn0] at ho
      dsimp only at ho
      exact ⟨x, hx, by omega, by omega⟩
  have hpok : ∀ q ∈ b.parts, q.Ok := by
    intro q hq
    obtain ⟨x, hx, rfl⟩ := List.mem_map.1 hq
    exact hcut.ok x (by rw [hmovie]; simp [hx])
  obtain ⟨s, h1, h2⟩ := extract_fold hmovie hcut ha hK (rest := b) (done := []) (s := (ts, fun _ => none)) rfl hKb
    ⟨hloc, fun _ _ => rfl, fun n _ ⟨p, hp, _⟩ => absurd hp (by simp), fun _ _ _ => rfl, fun _ _ h => absurd rfl h⟩
  refine ⟨s, ?_, h2⟩
  unfold aviExtract
  simp only [hst, hstart, ok_bind]
  rw [hfile]
  have := parts_length_le (mode := .avi) hpok
  rw [riffLoop_parts hpok (enters_all _ _) (fitsFrom_of_ne (by decide) _ _ _) (by simp; omega)]
  exact h1

end Rescene
