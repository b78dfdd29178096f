import Verif.Props.Mkv
import Verif.Props.Riff
import Verif.Props.Ebml
/-
C41: an SRS is created for MKV samples.
-/
namespace Rescene.Props
open Rescene Rescene.Spec

/-- The elements of a description come after the number of the track. -/
def NumberFirst (parts : List MkvPart) : Prop := ∀ a p b, parts = a ++ p :: b →
  p.id ∈ [compressionId, codecId, compAlgoId, compSettingsId] → ∃ size data, .leaf trackNumberId size data ∈ a

theorem cur_has {done : List MkvPart} : ∀ {st : StripState}, (∃ size data, .leaf trackNumberId size data ∈ done) →
    HasTrack done (done.foldl stripStep st).cur := by
  have aux : ∀ {done : List MkvPart} {st : StripState}, (done.foldl stripStep st).cur = st.cur ∧ (∀ size data, .leaf trackNumberId size data ∉ done) ∨
      ∃ size data, .leaf trackNumberId size data ∈ done ∧ ofBe data = (done.foldl stripStep st).cur := by
    intro done
    induction done with
    | nil => intro st; exact Or.inl ⟨rfl, by simp⟩
    | cons p done ih =>
      intro st
      rw [List.foldl_cons]
      rcases ih (st := stripStep st p) with ⟨h1, h2⟩ | ⟨size, data, h1, h2⟩
      · rw [h1]
        by_cases hp : ∃ size data, p = .leaf trackNumberId size data
        · obtain ⟨size, data, rfl⟩ := hp
          refine Or.inr ⟨size, data, by simp, ?_⟩
          rw [stripStep_leaf, if_pos rfl]
        · refine Or.inl ⟨?_, ?_⟩
          · cases p with
            | enter => rfl
            | block => rfl
            | leaf id size data =>
              rw [stripStep_leaf, if_neg (by rintro rfl; exact hp ⟨size, data, rfl⟩)]
              split
              · rfl
              · split <;> rfl
          · intro size data hm
            rcases List.mem_cons.1 hm with e | hm
            · exact hp ⟨size, data, e.symm⟩
            · exact h2 size data hm
      · exact Or.inr ⟨size, data, by simp [h1], h2⟩
  intro st ⟨size, data, hm⟩
  rcases aux (done := done) (st := st) with ⟨_, h⟩ | ⟨s, d, h1, h2⟩
  · exact absurd hm (h size data)
  · exact Or.inr ⟨s, d, h1, h2⟩

theorem prof_goes_on {done : List MkvPart} {s : MkvProfile} {p : MkvPart} {pos : Nat} (hi : ProfInv done s)
    (hp : ProfPart p) (hb : p.id ∈ blockIds → ∃ b, p = .block b)
    (hn : p.id ∈ [compressionId, codecId, compAlgoId, compSettingsId] → ∃ size data, .leaf trackNumberId size data ∈ done)
    (hu : ∀ size n, p = .leaf fileNameId size n → ∃ x, utf8Dec n = .ok x) :
    ∃ r, mkvProfileItem s (p.elem pos) p.data = .ok r := by
  have hcur : (∃ size data, .leaf trackNumberId size data ∈ done) → (movGet s.tracks s.cur).isSome = true := by
    intro h
    rw [movGet_isSome, hi.keys, hi.cur]
    exact cur_has h
  cases p with
  | enter id size =>
    rw [profileItem_child (e := MkvPart.elem pos (.enter id size)) rfl hp]
    by_cases hc : id = eCompression
    · have := hcur (hn (by show id ∈ _; rw [hc]; decide))
      rw [if_neg]
      · exact ⟨_, rfl⟩
      · rintro ⟨_, h⟩
        rw [Option.isNone_iff_eq_none] at h
        rw [h] at this
        simp at this
    · rw [if_neg (fun h => hc h.1)]
      exact ⟨_, rfl⟩
  | block b => exact ⟨_, rfl⟩
  | leaf id size data =>
    rw [profileItem_leaf (e := MkvPart.elem pos (.leaf id size data)) rfl hp.1]
    change ∃ r, mkvProfileLeaf _ id _ data = .ok r
    unfold mkvProfileLeaf
    dsimp only
    split
    · exact ⟨_, rfl⟩
    · split
      · rename_i h
        rw [uint_read (hp.2 (by rw [h]; decide)), ok_bind]
        exact ⟨_, rfl⟩
      · split
        · rename_i h
          rw [if_pos (hcur (hn (by show id ∈ _; rw [h]; decide)))]
          exact ⟨_, rfl⟩
        · split
          · rename_i h
            rw [uint_read (hp.2 (by rw [h]; decide)), ok_bind, if_pos (hcur (hn (by show id ∈ _; rw [h]; decide)))]
            exact ⟨_, rfl⟩
          · split
            · rename_i h
              have := hcur (hn (by show id ∈ _; rw [h]; decide))
              split
              · obtain ⟨t, ht⟩ := Option.isSome_iff_exists.1 this
                rw [ht]
                exact ⟨_, rfl⟩
              · exact ⟨_, rfl⟩
            · split
              · rename_i h
                obtain ⟨x, hx⟩ := hu size data (by rw [h]; rfl)
                rw [hx, ok_bind]
                exact ⟨_, rfl⟩
              · exact ⟨_, rfl⟩

theorem prof_fold_ok {parts : List MkvPart} : ∀ {done : List MkvPart} {s : MkvProfile} (pos : Nat),
    (∀ p ∈ parts, p.Ok ∧ ProfPart p) → ProfInv done s → NumberFirst (done ++ parts) →
    (∀ size n, .leaf fileNameId size n ∈ parts → ∃ x, utf8Dec n = .ok x) →
    ∃ s', mkvFold mkvProfileHow mkvProfileItem (parts.map fun p => (p, true)) pos s = .ok s' := by
  induction parts with
  | nil => intro done s pos _ _ _ _; exact ⟨s, rfl⟩
  | cons p parts ih =>
    intro done s pos hp hi hnum hu
    obtain ⟨hok, hpp⟩ := hp p (by simp)
    obtain ⟨⟨s1, d⟩, h1⟩ := prof_goes_on (pos := pos) hi hpp (by
      intro hb
      cases p with
      | enter id size => exact absurd hb hok.2.1
      | leaf id size data => exact absurd hb hok.2.1
      | block b => exact ⟨b, rfl⟩) (hnum done p parts rfl) (fun size n e => hu size n (by simp [← e]))
    obtain ⟨hd, hi'⟩ := prof_step hi hok hpp h1
    subst hd
    obtain ⟨s', h'⟩ := ih (pos + (MkvItem.bytes (p, true)).length) (fun q hq => hp q (by simp [hq])) hi'
      (by rw [List.append_assoc]; exact hnum) (fun size n h => hu size n (by simp [h]))
    refine ⟨s', ?_⟩
    rw [List.map_cons, mkvFold]
    dsimp only
    rw [profile_seen hok hpp, h1, ok_bind]
    dsimp only
    rw [if_neg (by simp)]
    exact h'

/-- Samples are profiled: the CRC is calculated, and the tracks are found. -/
theorem mkvProfile_accepts {parts : List MkvPart} (hp : ∀ p ∈ parts, p.Ok ∧ ProfPart p) (hf : MkvFits parts) (hnum : NumberFirst parts)
    (hu : ∀ size n, .leaf fileNameId size n ∈ parts → ∃ x, utf8Dec n = .ok x) :
    ∃ ts, mkvProfile (mkvBytes parts) = .ok (crc32 (mkvBytes parts) 0, ts) ∧ MkvTracksOf parts ts := by
  have hi : ProfInv [] {} := by
    refine ⟨rfl, by simp [mkvBytes, mkvTotal], List.Pairwise.nil, ?_, by simp, rfl, rfl, ?_, ?_⟩
    · intro n; simp [HasTrack]
    · intro n h; exact absurd rfl h
    · intro n _; rfl
  obtain ⟨s, hs⟩ := prof_fold_ok 0 hp hi hnum hu
  have hi' := prof_fold hp hi hs
  rw [List.nil_append] at hi'
  refine ⟨s.tracks, ?_, hi'.distinct, hi'.keys, hi'.data⟩
  have hw : mkvWalk .sample true mkvProfileHow (mkvBytes parts) mkvProfileItem {} = .ok s := by
    rw [← itemsBytes_all, mkvWalk_items]
    · exact hs
    · intro x hx
      obtain ⟨p, hpm, rfl⟩ := List.mem_map.1 hx
      exact (hp p hpm).1
    · intro x hx s pos
      obtain ⟨p, hpm, rfl⟩ := List.mem_map.1 hx
      exact profile_suits' (hp p hpm).1 (hp p hpm).2 s pos
    · intro _; exact room_all hf
  unfold mkvProfile
  rw [hw, ok_bind, if_neg (by rw [hi'.total]; simp), hi'.crc]
  rfl

/-- No more than `n` different numbers are below `n`. -/
theorem distinct_length : ∀ {n : Nat} {l : List Nat}, l.Pairwise (· ≠ ·) → (∀ x ∈ l, x < n) → l.length ≤ n := by
  intro n
  induction n with
  | zero =>
    intro l _ h
    cases l with
    | nil => simp
    | cons x l => exact absurd (h x (by simp)) (by omega)
  | succ n ih =>
    intro l hd h
    have h1 := ih (l := l.erase n) (hd.sublist List.erase_sublist) (by
      intro x hx
      have hx' := List.mem_of_mem_erase hx
      have := h x hx'
      have hne : x ≠ n := by
        rintro rfl
        exact (List.Nodup.not_mem_erase (show l.Nodup from hd)) hx
      omega)
    rw [List.length_erase] at h1
    split at h1 <;> omega

theorem mkvTrackData_le (parts : List MkvPart) (n : Nat) : (mkvTrackData parts n).length ≤ (mkvBytes parts).length := by
  induction parts with
  | nil => simp [mkvTrackData, mkvBytes]
  | cons p parts ih =>
    rw [show p :: parts = [p] ++ parts from rfl, trackData_append, mkvBytes_append, List.length_append, List.length_append]
    have : (mkvTrackData [p] n).length ≤ (mkvBytes [p]).length := by
      cases p with
      | enter => simp [mkvTrackData]
      | leaf => simp [mkvTrackData]
      | block b =>
        by_cases h : b.track = n
        · simp [mkvTrackData, h, mkvBytes, MkvPart.bytes, MkvPart.data]
        · simp [mkvTrackData, h]
    omega

theorem ebmlElement_accepts (id : Bytes) {data : Bytes} (h : data.length < 2 ^ 49) :
    ∃ b, ebmlElement id data = .ok b ∧ b.length ≤ id.length + 7 + data.length := by
  obtain ⟨b, hb⟩ := (ebml_accepted_iff data.length).2 h
  obtain ⟨k, hv, hk⟩ := makeEbmlUInt_vint hb
  have := vint_length hv
  refine ⟨id ++ (b ++ data), by unfold ebmlElement; rw [hb]; rfl, ?_⟩
  simp only [List.length_append]
  omega

theorem flatten_bound {l : List Bytes} {k : Nat} (h : ∀ x ∈ l, x.length ≤ k) : l.flatten.length ≤ l.length * k := by
  induction l with
  | nil => simp
  | cons x l ih =>
    have h1 := ih fun y hy => h y (by simp [hy])
    have h2 := h x (by simp)
    rw [List.flatten_cons, List.length_append, List.length_cons, Nat.succ_mul]
    omega

theorem mapM_bound {α : Type} {f : α → Res Bytes} {k : Nat} {l : List α} (h : ∀ a ∈ l, ∃ b, f a = .ok b ∧ b.length ≤ k) :
    ∃ r, l.mapM f = .ok r ∧ r.length = l.length ∧ ∀ x ∈ r, x.length ≤ k := by
  induction l with
  | nil => exact ⟨[], rfl, rfl, by simp⟩
  | cons a l ih =>
    obtain ⟨b, hb, hk⟩ := h a (by simp)
    obtain ⟨r, hr, hl, hx⟩ := ih fun x hx => h x (by simp [hx])
    refine ⟨b :: r, mapM_ok_cons.2 ⟨b, r, hb, hr, rfl⟩, by simp [hl], ?_⟩
    intro x hxm
    rcases List.mem_cons.1 hxm with rfl | hxm
    · exact hk
    · exact hx x hxm

theorem mkvCreate_accepts {own : Bytes} {a b : List MkvPart} {seg : Bytes} (hs : MkvPart.Ok (.enter segmentId seg))
    (ha : ∀ p ∈ a, p.Ok ∧ KeptPart p ∧ p.id ≠ segmentId) (hb : ∀ p ∈ b, p.Ok ∧ KeptPart p ∧ p.id ≠ segmentId) :
    ∃ srs, mkvWalk .mkv true mkvCreateHow (mkvBytes (a ++ .enter segmentId seg :: b)) (mkvCreateItem (.ok own)) [] = .ok srs := by
  have hall : ∀ p ∈ a ++ .enter segmentId seg :: b, p.Ok ∧ KeptPart p := by
    intro p hp
    rcases List.mem_append.1 hp with hp | hp
    · exact ⟨(ha p hp).1, (ha p hp).2.1⟩
    · rcases List.mem_cons.1 hp with hp | hp
      · subst hp; exact ⟨hs, by show segmentId ∈ mediaIds; decide⟩
      · exact ⟨(hb p hp).1, (hb p hp).2.1⟩
  rw [← itemsBytes_all, mkvWalk_items]
  · obtain ⟨pos', h'⟩ := mkvCreate_fold (own := .ok own) (rest := .enter segmentId seg :: b) ha 0 []
    rw [h', List.map_cons, mkvFold]
    dsimp only
    have hitem : ∀ out pos, mkvCreateItem (.ok own) out (MkvPart.elem pos (.enter segmentId seg))
        (ebmlSeen (mkvCreateHow out (MkvPart.elem pos (.enter segmentId seg))) (.enter segmentId seg)) =
        .ok (out ++ (segmentId ++ seg) ++ own, false) := by
      intro out pos
      unfold mkvCreateItem
      exact if_pos rfl
    rw [hitem, ok_bind]
    dsimp only
    rw [if_neg (by simp)]
    obtain ⟨pos'', h''⟩ := mkvCreate_fold (own := .ok own) (rest := []) hb
      (pos' + (MkvItem.bytes (.enter segmentId seg, true)).length) ([] ++ mkvItemsBytes (a.map kept) ++ (segmentId ++ seg) ++ own)
    rw [List.append_nil] at h''
    rw [h'']
    exact ⟨_, rfl⟩
  · intro x hx
    obtain ⟨p, hpm, rfl⟩ := List.mem_map.1 hx
    exact (hall p hpm).1
  · intro x hx s pos
    obtain ⟨p, hpm, rfl⟩ := List.mem_map.1 hx
    exact mkvCreate_suits (hall p hpm).1 (hall p hpm).2 s pos
  · simp

/-- An SRS is created for every such sample of less than 2 GiB, or of any size with `-b`, that has a
track, if numbers of tracks come first in descriptions and names of attachments are UTF-8. -/
theorem mkv_create_succeeds {lead info media : List MkvTop} {seg : Bytes} (hp : PlainMkv lead seg info media)
    (hn : ∀ n, HasTrack (mkvFine (lead ++ .part (.enter segmentId seg) :: (info ++ media))) n → n < 2 ^ 16)
    (htrack : ∃ n, HasTrack (mkvFine (lead ++ .part (.enter segmentId seg) :: (info ++ media))) n)
    (hnum : NumberFirst (mkvFine (lead ++ .part (.enter segmentId seg) :: (info ++ media))))
    (hu : ∀ size n, .leaf fileNameId size n ∈ mkvFine media → ∃ x, utf8Dec n = .ok x)
    {app name : Str} {big : Bool}
    (hsize : (mkvFile (lead ++ .part (.enter segmentId seg) :: (info ++ media))).length < if big then 2 ^ 64 else 2 ^ 31)
    (happ : Encodable app ∧ utf8Len app < 2 ^ 16) (hname : Encodable (basename name) ∧ utf8Len (basename name) < 2 ^ 16) :
    ∃ srs, srsMkvCreate app name (mkvFile (lead ++ .part (.enter segmentId seg) :: (info ++ media))) big none = .ok srs := by
  have sh := plainMkv_shape hp
  obtain ⟨ts, hprof, hts⟩ := mkvProfile_accepts sh.prof hp.fits hnum (by
    intro size n hm
    have : mkvFine (lead ++ .part (.enter segmentId seg) :: (info ++ media)) =
        mkvFine (lead ++ .part (.enter segmentId seg) :: info) ++ mkvFine media := by
      rw [← mkvFine_append]; simp
    rw [this] at hm
    rcases List.mem_append.1 hm with hm | hm
    · exact absurd rfl (sh.calmFine _ hm).1
    · exact hu size n hm)
  have hne : ts ≠ [] := by
    rintro rfl
    obtain ⟨n, hn⟩ := htrack
    have := (hts.keys n).2 hn
    simp at this
  have hx : ∀ x ∈ ts, x.1 = x.2.number ∧ x.2.number < 2 ^ 16 ∧ x.2.flags = 0 := by
    rintro ⟨n, t⟩ hxm
    have h3 := hts.data n t hxm
    have h4 := hn n ((hts.keys n).1 (List.mem_map.2 ⟨_, hxm, rfl⟩))
    rw [h3.2]
    exact ⟨rfl, h4, rfl⟩
  have hcount : ts.length ≤ 2 ^ 16 := by
    have := distinct_length (n := 2 ^ 16) (l := ts.map (·.1)) (by rw [List.pairwise_map]; exact hts.distinct) (by
      intro n hnm
      exact hn n ((hts.keys n).1 hnm))
    rwa [List.length_map] at this
  obtain ⟨f, hf⟩ := (file_data_accepted_iff app 3 name (mkvFile (lead ++ .part (.enter segmentId seg) :: (info ++ media))).length
      (crc32 (mkvFile (lead ++ .part (.enter segmentId seg) :: (info ++ media))) 0).toNat).2
    ⟨happ.1, happ.2, hname.1, hname.2, by omega, by cases big <;> simp at hsize <;> omega⟩
  have hfs := file_data_short hf
  obtain ⟨fe, hfe, hfl⟩ := ebmlElement_accepts eResampleFile (data := f) (by omega)
  obtain ⟨te, hte, htl, htx⟩ := mapM_bound (k := 2 ^ 18) (l := ts) (f := fun (x : Nat × MkvTrack) => (do
      let t := if big then { x.2 with flags := x.2.flags ||| 4 } else x.2
      let d ← mkvTrackBytes t
      ebmlElement eResampleTrack d : Res Bytes)) (by
    rintro ⟨n, t⟩ hm
    obtain ⟨h1, h2, h3⟩ := hx _ hm
    have hdata := hts.data n t hm
    have hlen := mkvTrackData_le (mkvFine (lead ++ .part (.enter segmentId seg) :: (info ++ media))) n
    have hsl := hdata.1.2.2
    have hd : ∃ d, mkvTrackBytes (if big then { t with flags := t.flags ||| 4 } else t) = .ok d := by
      unfold mkvTrackBytes
      have hl0 : t.len = (mkvTrackData (mkvFine (lead ++ .part (.enter segmentId seg) :: (info ++ media))) n).length := by rw [hdata.2]
      have ho0 : t.offset = 0 := by rw [hdata.2]
      have hfile : (mkvFile (lead ++ .part (.enter segmentId seg) :: (info ++ media))).length =
        (mkvBytes (mkvFine (lead ++ .part (.enter segmentId seg) :: (info ++ media)))).length := rfl
      dsimp only at h2 h3
      cases big with
      | false =>
        simp at hsize
        simp only [Bool.false_eq_true, if_false]
        rw [if_neg (by rw [hl0]; omega)]
        refine (track_data_accepted_iff _).2 ⟨?_, ?_, ?_, ?_, ?_, ?_⟩
        · dsimp only; rw [h3]; omega
        · dsimp only; omega
        · dsimp only; rw [h3, hl0, if_neg (by decide)]; omega
        · dsimp only; omega
        · dsimp only; omega
        · dsimp only; omega
      | true =>
        simp at hsize
        simp only [if_true]
        rw [if_neg (by rw [hl0]; omega)]
        refine (track_data_accepted_iff _).2 ⟨?_, ?_, ?_, ?_, ?_, ?_⟩
        · dsimp only; rw [h3]; decide
        · dsimp only; omega
        · dsimp only; rw [h3, hl0, if_pos (by decide)]; omega
        · dsimp only; omega
        · dsimp only; omega
        · dsimp only; omega
    obtain ⟨d, hd⟩ := hd
    have hds : d.length < 2 ^ 17 := by
      unfold mkvTrackBytes at hd
      cases big with
      | false =>
        simp only [Bool.false_eq_true, if_false] at hd
        by_cases hl : t.len < 0
        · rw [if_pos hl] at hd; simp at hd
        · rw [if_neg hl] at hd; exact track_data_short hd
      | true =>
        simp only [if_true] at hd
        by_cases hl : t.len < 0
        · rw [if_pos hl] at hd; simp at hd
        · rw [if_neg hl] at hd; exact track_data_short hd
    obtain ⟨b, hb, hbl⟩ := ebmlElement_accepts eResampleTrack (data := d) (by omega)
    refine ⟨b, by dsimp only; rw [hd, ok_bind, hb], ?_⟩
    have : eResampleTrack.length = 2 := rfl
    omega)
  have hflat := flatten_bound htx
  have hml : te.length * 2 ^ 18 ≤ 2 ^ 16 * 2 ^ 18 := Nat.mul_le_mul_right _ (by omega)
  have e2 : eResampleFile.length = 2 := rfl
  obtain ⟨o, ho, _⟩ := ebmlElement_accepts eResample (data := fe ++ te.flatten) (by rw [List.length_append]; omega)
  have hown : mkvOwn app name (mkvFile (lead ++ .part (.enter segmentId seg) :: (info ++ media))).length
      (crc32 (mkvFile (lead ++ .part (.enter segmentId seg) :: (info ++ media))) 0).toNat ts big = .ok o := by
    unfold mkvOwn
    rw [hf, ok_bind, hfe, ok_bind]
    have : (ts.mapM fun (_, t) => (do
      let t := if big then { t with flags := t.flags ||| 4 } else t
      let d ← mkvTrackBytes t
      ebmlElement eResampleTrack d : Res Bytes)) = .ok te := hte
    rw [this, ok_bind, ho]
  obtain ⟨srs, hsrs⟩ := mkvCreate_accepts (own := o) sh.segOk sh.leadKept sh.restKept
  refine ⟨srs, ?_⟩
  unfold srsMkvCreate
  rw [if_neg (by
    rintro ⟨h1, h2⟩
    rw [h2] at hsize
    simp at hsize
    omega), show mkvProfile (mkvFile _) = _ from hprof, ok_bind]
  dsimp only
  rw [if_neg hne, ok_bind]
  unfold mkvCreateSrs
  rw [show crc32 (mkvBytes (mkvFine (lead ++ .part (.enter segmentId seg) :: (info ++ media)))) 0 =
    crc32 (mkvFile (lead ++ .part (.enter segmentId seg) :: (info ++ media))) 0 from rfl, hown, mkvFile_coarse, coarse_parts]
  exact hsrs

end Rescene.Props
