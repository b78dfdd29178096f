import Verif.Props.Mp3
/-
C39, continued: when the SRS is not mistaken, files that are not rebuilt, termination.
-/
namespace Rescene.Props
open Rescene.Spec

/-! ### The usual files: ID3v2 in front, ID3v1 behind -/

theorem occurs_tail {x pr y w post : Bytes} (h : x ++ pr = y ++ (w ++ post)) (hl : (w ++ post).length ≤ pr.length) :
    ∃ k, OccursAt w pr k := by
  have hlen := congrArg List.length h
  simp only [List.length_append] at hlen hl
  have ho : OccursAt w (x ++ pr) y.length := ⟨y, post, by rw [h]; simp, rfl⟩
  exact ⟨_, occursAt_drop (by omega) ho⟩

/-- The SRS of such a file is read as its tags around the description, the track and the fingerprint. -/
theorem mp3_usual_srs {app name : Str} {front : List Bytes} {sound srs v1 : Bytes}
    {du : Nat} {pr : Bytes} {bigFile : Bool} {check : Option Bytes}
    (hs : SoundIn front sound) (ht : Tagged front sound { id3v1 := v1 })
    (hdu : du < 2 ^ 32) (hpr : 128 ≤ pr.length) (hpr2 : pr.length < 2 ^ 31)
    (hw : ∀ k, ¬ OccursAt [0x54, 0x41, 0x47] pr k ∧ ¬ OccursAt mLYRICS200 pr k ∧ ¬ OccursAt mLYRICSEND pr k ∧
      ¬ OccursAt mAPETAGEX pr k)
    (h : srsMp3Create app name (mp3File front sound { id3v1 := v1 }) (some (du, pr)) bigFile check = .ok srs) :
    ∃ f d us td, srs = mp3File front (partBytes (srsParts ((mSRSF, f) :: (mSRST, d) :: us))) { id3v1 := v1 } ∧
      Tagged front (partBytes (srsParts ((mSRSF, f) :: (mSRST, d) :: us))) { id3v1 := v1 } ∧
      8 + f.length < 2 ^ 32 ∧ 8 + d.length < 2 ^ 32 ∧
      fileParse f = .ok ⟨3, app, basename name, (mp3File front sound { id3v1 := v1 }).length,
        (crc32 (mp3File front sound { id3v1 := v1 }) 0).toNat⟩ ∧
      trackParse d = .ok td ∧ td.number = 1 ∧ td.sig = sound.take 256 ∧ td.dataLength = sound.length ∧
      ∃ u, us = [(mSRSP, u)] ∧ 8 + u.length < 2 ^ 32 ∧ ∃ p, readFingerprint u = .ok p := by
  obtain ⟨f, d, us, td, rfl, hfl, hdl, hf, hd, hnum, hsig, hlen, hu⟩ := mp3_created ht hs h
  replace hfl : 8 + f.length < 2 ^ 32 := by omega
  rcases hu with ⟨_, hno⟩ | ⟨u, rfl, hul, du', pr', heq, rfl, hread⟩
  · exact absurd ⟨hdu, by omega⟩ (hno du pr rfl)
  simp only [Option.some.injEq, Prod.mk.injEq] at heq
  obtain ⟨rfl, rfl⟩ := heq
  have hins : partBytes (srsParts [(mSRSF, f), (mSRST, d), (mSRSP, le 4 du ++ (le 4 pr.length ++ pr))]) =
      (sblk mSRSF f ++ (sblk mSRST d ++ (mSRSP ++ (le 4 (8 + (le 4 du ++ (le 4 pr.length ++ pr)).length) ++ (le 4 du ++ le 4 pr.length))))) ++ pr := by
    simp [srsParts, sblk]
  have hend : ∀ (y w post : Bytes), front.flatten ++ (partBytes (srsParts [(mSRSF, f), (mSRST, d), (mSRSP, le 4 du ++ (le 4 pr.length ++ pr))])) =
      y ++ (w ++ post) → (w ++ post).length ≤ pr.length → ∃ k, OccursAt w pr k := by
    intro y w post he hl
    rw [hins, ← List.append_assoc] at he
    exact occurs_tail he hl
  have hsrs : Tagged front (partBytes (srsParts [(mSRSF, f), (mSRST, d), (mSRSP, le 4 du ++ (le 4 pr.length ++ pr))]))
      { id3v1 := v1 } := by
    refine ⟨ht.front_, ?_, ?_, ?_, ?_, Or.inr ⟨rfl, ?_⟩, Or.inr ⟨rfl, ?_⟩, Or.inr ⟨rfl, ?_⟩⟩
    · simp [srsParts, sblk, mSRSF]
    · simp [srsParts, sblk, mSRSF]
    · rw [hins]; simp; omega
    · rcases ht.id3v1_ with h1 | ⟨h1, _⟩
      · exact Or.inl h1
      · refine Or.inr ⟨h1, ?_⟩
        simp only at h1
        subst h1
        rintro ⟨y, post, he, hl⟩
        obtain ⟨k, hk⟩ := hend y [0x54, 0x41, 0x47] post (by simpa [Tags.bytes] using he) (by simp [hl]; omega)
        exact (hw k).1 hk
    · rintro ⟨y, ds, h6, he⟩
      obtain ⟨k, hk⟩ := hend (y ++ ds) mLYRICS200 [] (by rw [List.append_nil, List.append_assoc, ← List.append_nil (partBytes _)]; exact he) (by simp [mLYRICS200]; omega)
      exact (hw k).2.1 hk
    · rintro ⟨y, he⟩
      obtain ⟨k, hk⟩ := hend y mLYRICSEND [] (by rw [List.append_nil, ← List.append_nil (partBytes _)]; exact he) (by simp [mLYRICSEND]; omega)
      exact (hw k).2.2.1 hk
    · rintro ⟨y, r, hr, he⟩
      obtain ⟨k, hk⟩ := hend y mAPETAGEX r he (by simp [mAPETAGEX, hr]; omega)
      exact (hw k).2.2.2 hk
  exact ⟨f, d, _, td, rfl, hsrs, hfl, hdl, hf, hd, hnum, hsig, hlen, _, rfl, hul, _, hread⟩

/-- C39: files with any ID3v2 tags in front and no tag or an ID3v1 tag behind, with a
fingerprint of at least 128 bytes in which the words "TAG", "LYRICS200", "LYRICSEND" and
"APETAGEX" do not occur: the file is rebuilt byte for byte from its SRS and any file with the
same sound.  Nothing is assumed about the SRS. -/
theorem mp3_usual_rebuilt {app name : Str} {front front' : List Bytes} {sound srs v1 : Bytes} {t' : Tags}
    {du : Nat} {pr : Bytes} {bigFile : Bool} {check : Option Bytes}
    (hs : SoundIn front sound) (hs' : SoundIn front' sound) (ht : Tagged front sound { id3v1 := v1 }) (hm : Tagged front' sound t')
    (hdu : du < 2 ^ 32) (hpr : 128 ≤ pr.length) (hpr2 : pr.length < 2 ^ 31)
    (hw : ∀ k, ¬ OccursAt [0x54, 0x41, 0x47] pr k ∧ ¬ OccursAt mLYRICS200 pr k ∧ ¬ OccursAt mLYRICSEND pr k ∧
      ¬ OccursAt mAPETAGEX pr k)
    (h : srsMp3Create app name (mp3File front sound { id3v1 := v1 }) (some (du, pr)) bigFile check = .ok srs) :
    srsMp3Reconstruct srs (mp3File front' sound t') = .ok ⟨mp3File front sound { id3v1 := v1 },
      (mp3File front sound { id3v1 := v1 }).length, (crc32 (mp3File front sound { id3v1 := v1 }) 0).toNat, true⟩ := by
  obtain ⟨f, d, us, td, rfl, hsrs, hfl, hdl, hf, hd, hnum, hsig, hlen, hu⟩ := mp3_usual_srs hs ht hdu hpr hpr2 hw h
  rw [mp3_reconstruct hsrs hfl hdl hf hd hnum (Or.inr hu) hm hs' hsig hlen]
  simp

/-! ### Making an SRS succeeds -/

theorem mp3_create_ok {front : List Bytes} {sound : Bytes} {t : Tags} (h : Tagged front sound t) (hs : SoundIn front sound)
    {app name : Str} {size crc : Nat} {tracks : Tracks} {fp : Option (Nat × Bytes)} {bigFile : Bool} {ins : Bytes}
    (hins : mp3Insert app name size crc tracks fp bigFile = .ok ins) :
    mp3CreateSrs app name size crc tracks fp bigFile (mp3File front sound t) = .ok (mp3File front ins t) := by
  obtain ⟨v, hb⟩ := blocks_sound h hs
  unfold mp3CreateSrs
  rw [hb, ok_bind]
  have := foldlM_place (file := mp3File front sound t) (g := createPart (mp3Insert app name size crc tracks fp bigFile))
    (fun s ty pre x post hf => create_part s ty pre x post hf)
    (front.map (fun f => (.id3, f)) ++ ([(.mp3, sound)] ++ tailParts v t)) [] [] []
    (by rw [parts_file]; simp)
  simp only [List.length_nil] at this
  rw [this, List.foldlM_append, foldlM_tags (k := fun s x => s ++ x) _ _ (front_tags front) createPart_tag,
    ok_bind, List.foldlM_append, List.foldlM_cons, createPart, if_pos (Or.inl rfl), hins]
  simp only [ok_bind, pure_eq_ok, List.foldlM_nil]
  rw [foldlM_tags (k := fun s x => s ++ x) _ _ (tail_tags v t) createPart_tag]
  have cat : ∀ (l : List Bytes) (s : Bytes), l.foldl (fun s x => s ++ x) s = s ++ l.flatten := by
    intro l
    induction l with
    | nil => intro s; simp
    | cons x l ih => intro s; rw [List.foldl_cons, ih]; simp
  have f1 := front_bytes front
  have f2 := tailParts_bytes v t
  unfold partBytes at f1 f2
  rw [cat, cat, f1, f2]
  simp [mp3File]

/-- An SRS can be made of every such file below 2 GiB, when the names can be stored. -/
theorem mp3_create_succeeds {front : List Bytes} {sound : Bytes} {t : Tags} (h : Tagged front sound t) (hs : SoundIn front sound)
    {app name : Str} {a n : Bytes} (fp : Option (Nat × Bytes))
    (ha : utf8Enc app = .ok a) (hn : utf8Enc (basename name) = .ok n) (hal : a.length < 2 ^ 16) (hnl : n.length < 2 ^ 16)
    (hlen : (mp3File front sound t).length < 2 ^ 31) :
    ∃ ins, srsMp3Create app name (mp3File front sound t) fp false none = .ok (mp3File front ins t) ∧
      ins.length = 52 + a.length + n.length + min 256 sound.length + (mp3Fingerprint fp).length := by
  have hsl : sound.length ≤ (mp3File front sound t).length := by
    unfold mp3File; simp only [List.length_append]; omega
  have hins : ∃ ins, mp3Insert app name (mp3File front sound t).length (crc32 (mp3File front sound t) 0).toNat
      [(1, { number := 1, dataLength := sound.length, sig := sound.take 256 })] fp false = .ok ins ∧
      ins.length = 52 + a.length + n.length + min 256 sound.length + (mp3Fingerprint fp).length := by
    generalize (mp3File front sound t).length = L at *
    generalize hc : crc32 (mp3File front sound t) 0 = c
    have hcl : c.toNat &&& 0xFFFFFFFF < 256 ^ 4 := Nat.lt_of_le_of_lt Nat.and_le_right (by decide)
    have p1 : pack 2 3 = .ok (le 2 3) := pack_ok (by decide)
    have p2 : pack 2 a.length = .ok (le 2 a.length) := pack_ok (by omega)
    have p3 : pack 2 n.length = .ok (le 2 n.length) := pack_ok (by omega)
    have p4 : pack 8 L = .ok (le 8 L) := pack_ok (by omega)
    have p5 : pack 4 (c.toNat &&& 0xFFFFFFFF) = .ok (le 4 (c.toNat &&& 0xFFFFFFFF)) := pack_ok hcl
    have q1 : pack 2 0 = .ok (le 2 0) := pack_ok (by decide)
    have q2 : pack 2 1 = .ok (le 2 1) := pack_ok (by decide)
    have q3 : pack 4 sound.length = .ok (le 4 sound.length) := pack_ok (by omega)
    have q4 : packInt 8 0 = .ok (le 8 0) := by decide
    have q5 : pack 2 (min 256 sound.length) = .ok (le 2 (min 256 sound.length)) := pack_ok (by omega)
    have hl : ∀ k m, (le k m).length = k := le_length
    have r1 : ∀ x : Bytes, x.length < 2 ^ 20 → pack 4 (8 + x.length) = .ok (le 4 (8 + x.length)) := fun x hx => pack_ok (by omega)
    unfold mp3Insert fileSerialize mp3Track trackSerialize srsBlock
    simp only [ha, hn, p1, p2, p3, p4, p5, ok_bind, pure_eq_ok, List.mapM_cons, List.mapM_nil, Bool.false_eq_true, if_false,
      List.length_take, q1, q2, q3, q4, q5, hasFlag, Nat.zero_and, bne_self_eq_false,
      if_neg (show ¬ 2 ^ 16 ≤ 1 by decide)]
    rw [r1 _ (by simp only [List.length_append, hl]; omega), ok_bind]
    rw [r1 _ (by simp only [List.length_append, hl, List.length_take]; omega), ok_bind, ok_bind, ok_bind]
    refine ⟨_, rfl, ?_⟩
    simp only [List.length_append, hl, List.flatten_cons, List.flatten_nil, List.length_take, List.length_nil,
      show mSRSF.length = 4 from rfl, show mSRST.length = 4 from rfl]
    omega
  obtain ⟨ins, h1, h2⟩ := hins
  refine ⟨ins, ?_, h2⟩
  unfold srsMp3Create
  rw [if_neg (by omega), mp3_profile h hs, ok_bind]
  dsimp only
  rw [if_neg (by simp), ok_bind]
  exact mp3_create_ok h hs h1

/-! ### Lyrics3 tags -/

/-- C39 is false: when the file has a Lyrics3 tag (version 1) and, without sound data, there
are less than 5100 bytes before the end of that tag, the SRS can be made but is never read: the
reader seeks to before the start of the file. -/
theorem mp3_lyrics3_never_rebuilt {app name : Str} {front : List Bytes} {sound srs : Bytes} {t : Tags}
    {fp : Option (Nat × Bytes)} {bigFile : Bool} {check : Option Bytes}
    (hs : SoundIn front sound) (ht : Tagged front sound t) (hl1 : t.lyrics1 ≠ []) (hv1 : IsId3v1 t.id3v1)
    (h : srsMp3Create app name (mp3File front sound t) fp bigFile check = .ok srs)
    (hshort : srs.length < 5100 + t.lyrics2.length + t.id3v1.length) (main : Bytes) :
    srsMp3Reconstruct srs main = .error .envError := by
  obtain ⟨f, d, us, td, rfl, hfl, hdl, hf, hd, hnum, hsig, hlen, hu⟩ := mp3_created ht hs h
  replace hfl : 8 + f.length < 2 ^ 32 := by omega
  generalize hins : partBytes (srsParts ((mSRSF, f) :: (mSRST, d) :: us)) = ins at *
  have hpre : mSRSF <+: ins := by
    rw [← hins]
    exact ⟨le 4 (8 + f.length) ++ (f ++ partBytes (srsParts ((mSRST, d) :: us))), by simp [srsParts, sblk]⟩
  have hno3 : ¬ [0x49, 0x44, 0x33] <+: ins ++ t.bytes := by
    obtain ⟨r, hr⟩ := hpre
    rw [← hr]
    simp [mSRSF]
  have hfl' : front.length ≤ front.flatten.length := by
    have := ht.front_
    clear hshort h ht hf hs
    induction front with
    | nil => simp
    | cons f l ih =>
      have h1 := ih (fun x hx => this x (by simp [hx]))
      obtain ⟨n, hn, _⟩ := id3_parts (this f (by simp)) (pre := []) (post := []) rfl
      simp only [List.length_cons, List.flatten_cons, List.length_append]
      omega
  obtain ⟨body, hbody⟩ : ∃ body, t.lyrics1 = lyricsBegin ++ (body ++ lyricsEnd) := by
    rcases ht.lyrics1_ with h1 | h1
    · exact h1.1
    · exact absurd h1.1 hl1
  have hb : t.bytes = t.ape ++ (t.lyrics1 ++ (t.lyrics2 ++ t.id3v1)) := rfl
  have s1 := mp3Id3s_front (file := mp3File front ins t) front [] (ins ++ t.bytes) 0 ((mp3File front ins t).length + 1) ht.front_ hno3 rfl rfl
    (by unfold mp3File; simp only [List.length_append]; omega)
  have s2 := v1_step (file := mp3File front ins t) (rest := front.flatten ++ (ins ++ (t.ape ++ (t.lyrics1 ++ t.lyrics2)))) (t := t.id3v1)
    (by unfold mp3File; rw [hb]; simp) (by unfold mp3File; rw [hb]; simp [hv1.1]; omega) (Or.inl hv1)
  have s3 := lyrics2_step (file := mp3File front ins t) (rest := front.flatten ++ (ins ++ (t.ape ++ t.lyrics1))) (t := t.lyrics2)
    (post := t.id3v1) (by unfold mp3File; rw [hb]; simp) (ht.lyrics2_.imp id (fun h2 => ⟨h2.1, by
      rintro ⟨y, ds, h6, he⟩
      apply h2.2
      rw [hbody] at he ⊢
      -- the last nine bytes are "LYRICSEND"
      exfalso
      have e1 : front.flatten ++ (ins ++ (t.ape ++ (lyricsBegin ++ (body ++ lyricsEnd)))) =
        (front.flatten ++ (ins ++ (t.ape ++ (lyricsBegin ++ body)))) ++ lyricsEnd := by simp
      rw [e1, ← List.append_assoc y] at he
      have := (List.append_inj' he rfl).2
      simp [lyricsEnd] at this⟩))
  have e2 : (front.flatten ++ (ins ++ (t.ape ++ (t.lyrics1 ++ t.lyrics2)))).length =
      (front.flatten ++ (ins ++ (t.ape ++ t.lyrics1))).length + t.lyrics2.length := by simp; omega
  have hlt : (front.flatten ++ (ins ++ (t.ape ++ t.lyrics1))).length < 5100 := by
    unfold mp3File at hshort
    rw [hb] at hshort
    simp only [List.length_append] at hshort ⊢
    omega
  have s4 : mp3Lyrics1 (mp3File front ins t) ((front.flatten ++ (ins ++ (t.ape ++ t.lyrics1))).length : Nat) = .error .envError := by
    unfold mp3Lyrics1
    generalize hx : front.flatten ++ (ins ++ (t.ape ++ t.lyrics1)) = x at *
    have hxl : x = (front.flatten ++ (ins ++ (t.ape ++ (lyricsBegin ++ body)))) ++ mLYRICSEND := by
      rw [← hx, hbody]; simp [lyricsEnd, mLYRICSEND]
    have hx9 : x.length = (front.flatten ++ (ins ++ (t.ape ++ (lyricsBegin ++ body)))).length + 9 := by
      rw [hxl, List.length_append]; rfl
    rw [if_pos (by omega)]
    rw [seekRead_int (p := ((x.length : Nat) : Int) - 9) (n := 9) (a := x.length - 9) (b := 9) (by omega) rfl, ok_bind]
    have hr : readAt (mp3File front ins t) (x.length - 9) 9 = mLYRICSEND := by
      have e : mp3File front ins t = (front.flatten ++ (ins ++ (t.ape ++ (lyricsBegin ++ body)))) ++ (mLYRICSEND ++ (t.lyrics2 ++ t.id3v1)) := by
        unfold mp3File; rw [hb, hbody]; simp [lyricsEnd, mLYRICSEND]
      rw [e]
      exact readAt_append _ _ _ (by omega) rfl
    rw [hr, if_pos rfl]
    unfold seekRead
    rw [if_pos (by omega)]
    rfl
  unfold srsMp3Reconstruct mp3LoadSrs mp3Blocks
  rw [s1, ok_bind]
  dsimp only
  rw [s2, ok_bind]
  dsimp only
  rw [e2, s3, ok_bind]
  dsimp only
  rw [s4]
  rfl

/-! ### Other data before the sound -/

/-- C39 is false for files with other data between the tags in front and the sound: the
signature is found, at an offset counted from the end of the tags, but that is then used as an
offset from the start of the file. -/
theorem mp3_prepended_refused {front' : List Bytes} {junk sound : Bytes} {t' : Tags}
    (hm : Tagged front' (junk ++ sound) t')
    (hfix : mp3Fix (mp3File front' (junk ++ sound) t') (place (front'.map fun f => (.id3, f)) 0) front'.flatten.length =
      .ok (place (front'.map fun f => (.id3, f)) 0, (front'.flatten.length : Nat)))
    (hno : ¬ mSRS <+: junk ++ sound) (hsync : isSync (junk ++ sound) = false)
    {srs : Bytes} {f : FileData} {td : TrackData} {p : Option (Nat × Bytes)}
    (hload : mp3LoadSrs srs = .ok (f, [(1, td)], p)) (hsig : 2 ≤ td.sig.length) (hsl : td.sig.length ≤ (junk ++ sound).length)
    (hsmall : (junk ++ sound).length ≤ 0x10000) (hfirst : FirstAt td.sig (junk ++ sound) junk.length)
    (hj : junk ≠ []) (hlt : junk.length < front'.flatten.length) :
    srsMp3Reconstruct srs (mp3File front' (junk ++ sound) t') = .error .assertError := by
  have hjl : 0 < junk.length := List.length_pos_iff.2 hj
  obtain ⟨v, hb⟩ := mp3Blocks_fixed (parts := [(.mp3, junk ++ sound)]) hm (file := mp3File front' (junk ++ sound) t') rfl hfix (by simp)
    (by
      intro q hq
      simp only [List.mem_singleton] at hq
      subst hq
      simp only
      intro he
      exact hj (List.append_eq_nil_iff.1 he).1)
    (main_sound hm.four hno)
  have hfind : mp3Find [(1, td)] (mp3File front' (junk ++ sound) t') =
      .ok [(1, { td with matchOffset := (junk.length : Nat), matchLength := min td.dataLength (junk ++ sound).length })] := by
    unfold mp3Find
    rw [hb, ok_bind, find_main]
    dsimp only
    unfold mp3FindBlock
    rw [if_neg (by simp only [mblk]; omega)]
    rw [show Tracks.get [(1, td)] 1 = .ok td from rfl, ok_bind]
    dsimp only
    have hn : (if (mblk .mp3 (junk ++ sound) front'.flatten.length).size < (td.sig.length : Int) then
        (mblk .mp3 (junk ++ sound) front'.flatten.length).size else (td.sig.length : Int)) = (td.sig.length : Nat) := by
      rw [if_neg (by simp only [mblk]; omega)]
    rw [hn, part_mblk (file := mp3File front' (junk ++ sound) t') (pre := front'.flatten) (post := t'.bytes) rfl
      (n := (td.sig.length : Int)) (k := td.sig.length) rfl (by omega), ok_bind, if_neg, if_pos]
    · have hms : mp3MatchSig (mp3File front' (junk ++ sound) t') (mblk .mp3 (junk ++ sound) front'.flatten.length) td.sig
          ((mp3File front' (junk ++ sound) t').length + 2) 0 = .ok (some (junk.length : Nat)) := by
        rw [mp3MatchSig, if_pos (by simp only [mblk]; omega)]
        have hmin : min ((mblk .mp3 (junk ++ sound) front'.flatten.length).size - 0) 0x10000 = ((junk ++ sound).length : Nat) := by
          simp only [mblk]; omega
        rw [hmin, part_mblk (file := mp3File front' (junk ++ sound) t') (pre := front'.flatten) (post := t'.bytes) rfl
          (n := ((junk ++ sound).length : Int)) (k := (junk ++ sound).length) rfl (by omega), ok_bind, List.take_length,
          bfind_first hfirst]
        simp
      rw [hms, ok_bind]
      rfl
    · refine ⟨by simp only [List.length_take]; omega, ?_⟩
      -- the first two bytes are no frame marker
      obtain ⟨a, b, r, hr⟩ : ∃ a b r, junk ++ sound = a :: b :: r := by
        match hx : junk ++ sound, hm.four with
        | a :: b :: r, _ => exact ⟨a, b, r, rfl⟩
      obtain ⟨n, hn2⟩ : ∃ n, td.sig.length = n + 2 := ⟨td.sig.length - 2, by omega⟩
      rw [hr] at hsync ⊢
      rw [hn2]
      simpa [isSync] using hsync
    · intro he
      -- else it would be found at once
      have : OccursAt td.sig (junk ++ sound) 0 := by
        rw [occursAt_zero]
        rw [he]
        exact List.take_prefix _ _
      have := hfirst.2 0 this
      omega
  unfold srsMp3Reconstruct
  rw [hload, ok_bind]
  dsimp only
  rw [hfind, ok_bind, if_neg (by simp [mp3Unlocated])]
  unfold mp3Extract
  rw [hb, ok_bind, find_main]
  dsimp only
  rw [show ∀ x : TrackData, Tracks.get [(1, x)] 1 = .ok x from fun _ => rfl, ok_bind, if_pos (by simp only [mblk]; omega)]
  rfl

/-! ### Reading ends -/

theorem nf_bind {α β} {x : Res α} {f : α → Res β} (hx : x ≠ .error .fuel) (hf : ∀ a, x = .ok a → f a ≠ .error .fuel) :
    (x >>= f) ≠ .error .fuel := by
  cases x with
  | error e => exact fun h => hx (by rw [error_bind] at h; injection h with h; rw [h])
  | ok a => exact hf a rfl

theorem seekRead_nf {file : Bytes} {p n : Int} : seekRead file p n ≠ .error .fuel := by
  unfold seekRead
  split
  · simp
  · split
    · simp
    · split <;> simp

theorem unpackAt_nf {k o : Nat} {b : Bytes} : unpackAt k b o ≠ .error .fuel := by
  unfold unpackAt
  split <;> simp

theorem decodeId3Size_nf {b : Bytes} : decodeId3Size b ≠ .error .fuel := by
  unfold decodeId3Size
  split <;> simp

theorem pyInt_nf {b : Bytes} : pyInt b ≠ .error .fuel := by
  unfold pyInt
  dsimp only
  split <;> simp

theorem mp3Id3s_nf (file : Bytes) : ∀ fuel pos, 0 < fuel → file.length + 1 ≤ fuel + pos → mp3Id3s file fuel pos ≠ .error .fuel := by
  intro fuel
  induction fuel with
  | zero => intro pos h; omega
  | succ fuel ih =>
    intro pos _ h
    rw [mp3Id3s]
    split
    · rename_i hr
      have hl := congrArg List.length hr
      rw [readAt_length, show mID3.length = 3 from rfl] at hl
      refine nf_bind decodeId3Size_nf (fun size _ => nf_bind (ih _ (by omega) (by omega)) (fun _ _ => by simp))
    · simp

theorem mp3SrsBlocks_nf (file : Bytes) (stop : Int) : ∀ (fuel : Nat) (pos : Int), 0 < fuel → (file.length : Int) + 1 ≤ fuel + pos →
    mp3SrsBlocks file stop fuel pos ≠ .error .fuel := by
  intro fuel
  induction fuel with
  | zero => intro pos h; omega
  | succ fuel ih =>
    intro pos _ h
    rw [mp3SrsBlocks]
    split
    · refine nf_bind seekRead_nf (fun m _ => nf_bind seekRead_nf (fun z hz => ?_))
      split
      · simp
      · rename_i size hu
        split
        · simp
        split
        · simp
        split
        · simp
        have hz4 : 4 ≤ z.length := by
          unfold unpackAt at hu
          split at hu
          · omega
          · simp at hu
        have hp : pos + 8 ≤ file.length := by
          unfold seekRead at hz
          split at hz
          · simp at hz
          · rw [if_neg (by omega), if_neg (by omega)] at hz
            simp only [Except.ok.injEq] at hz
            rw [← hz, readAt_length] at hz4
            omega
        refine nf_bind (ih _ (by omega) (by omega)) (fun _ _ => by simp)
    · simp

/-- C42: reading an MP3 file or an SRS of one ends for every file, with the blocks or an
exception: the loops over tags and blocks always get further. -/
theorem mp3_reader_terminates (file : Bytes) : mp3Blocks file ≠ .error .fuel := by
  unfold mp3Blocks
  refine nf_bind (mp3Id3s_nf file _ 0 (by omega) (by omega)) (fun _ _ => ?_)
  refine nf_bind ?_ (fun _ _ => nf_bind ?_ (fun _ _ => nf_bind ?_ (fun _ _ => nf_bind ?_ (fun _ _ =>
    nf_bind ?_ (fun _ _ => nf_bind ?_ (fun _ _ => by simp))))))
  · unfold mp3V1
    split
    · simp
    · split <;> simp
  · unfold mp3Lyrics2
    split
    · refine nf_bind seekRead_nf (fun _ _ => ?_)
      split
      · exact nf_bind pyInt_nf (fun _ _ => by simp)
      · simp
    · simp
  · unfold mp3Lyrics1
    split
    · refine nf_bind seekRead_nf (fun _ _ => ?_)
      split
      · refine nf_bind seekRead_nf (fun _ _ => ?_)
        split <;> simp
      · simp
    · simp
  · unfold mp3Ape
    split
    · refine nf_bind seekRead_nf (fun _ _ => ?_)
      split
      · refine nf_bind seekRead_nf (fun _ _ => nf_bind unpackAt_nf (fun _ _ => nf_bind seekRead_nf (fun _ _ => nf_bind unpackAt_nf (fun _ _ => by simp))))
      · simp
    · simp
  · unfold mp3Fix
    split
    · simp
    · split
      · dsimp only
        split
        · split
          · exact nf_bind seekRead_nf (fun _ _ => nf_bind decodeId3Size_nf (fun _ _ => by simp))
          · split
            · exact nf_bind seekRead_nf (fun _ _ => nf_bind decodeId3Size_nf (fun _ _ => by simp))
            · simp
        · simp
      · simp
  · unfold mp3Main
    refine nf_bind seekRead_nf (fun m hm => ?_)
    split
    · simp
    split
    · simp
    split
    · apply mp3SrsBlocks_nf
      · omega
      · unfold seekRead at hm
        split at hm
        · simp at hm
        · omega
    · simp

/-! ### Examples -/

/-- Bytes that end with another byte do not end with a word. -/
theorem not_suffix {x y w : Bytes} {b : UInt8} (h : x ++ [b] = y ++ w) (hw : w.getLast? ≠ some b) (hne : w ≠ []) : False := by
  have e : (x ++ [b]).getLast? = (y ++ w).getLast? := by rw [h]
  rw [List.getLast?_append, List.getLast?_append] at e
  cases hl : w.getLast? with
  | none => exact hne (by simpa using hl)
  | some c => rw [hl] at e hw; simp at e; exact hw (by rw [e])

theorem not_lyrics2 {x : Bytes} {b : UInt8} (hb : b ≠ 0x30) : ¬ EndsLikeLyrics2 (x ++ [b]) := by
  rintro ⟨y, ds, _, h⟩
  rw [← List.append_assoc y] at h
  exact not_suffix h (by simp [Ne.symm hb]) (by decide)

theorem not_lyrics1 {x : Bytes} {b : UInt8} (hb : b ≠ 0x44) : ¬ EndsLikeLyrics1 (x ++ [b]) := by
  rintro ⟨y, h⟩
  exact not_suffix h (by simp [lyricsEnd, Ne.symm hb]) (by decide)

theorem not_ape {x : Bytes} {b : UInt8} (hb : b ≠ 0x41) : ¬ EndsLikeApe (x ++ (b :: List.replicate 31 0)) := by
  rintro ⟨y, r, hr, h⟩
  have hl := congrArg List.length h
  simp only [List.length_append, List.length_cons, List.length_replicate, List.length_nil, hr] at hl
  have := (List.append_inj h (by omega)).2
  simp only [List.cons_append, List.cons.injEq] at this
  exact hb this.1

/-- A small file: an ID3v2 tag, `n` bytes of sound and an ID3v1 tag. -/
def exFront : Bytes := [0x49, 0x44, 0x33, 4, 0, 0, 0, 0, 0, 2, 1, 1]
def exSound (n : Nat) : Bytes := [0xFF, 0xFB] ++ (List.replicate n 0x55 ++ (0x55 :: List.replicate 31 0))
def exV1 : Bytes := [0x54, 0x41, 0x47] ++ List.replicate 125 0x20

theorem exSound_is (n : Nat) : IsSound (exSound n) :=
  Or.inl ⟨0xFB, List.replicate n 0x55 ++ (0x55 :: List.replicate 31 0), rfl, by decide, by simp⟩

theorem exSound_ok {front : List Bytes} (n : Nat) : SoundIn front (exSound n) := Or.inl (exSound_is n)

theorem exSound_end (n : Nat) : exSound n = ([0xFF, 0xFB] ++ (List.replicate n 0x55 ++ (0x55 :: List.replicate 30 0))) ++ [0] := by
  simp [exSound]

theorem exV1_ok : IsId3v1 exV1 := ⟨rfl, ⟨_, rfl⟩⟩

theorem exFront_ok : IsId3v2 exFront :=
  ⟨[4, 0, 0], 0, 0, 0, 2, [1, 1], rfl, by decide, by decide, by decide, by decide, by decide, rfl⟩

theorem exTagged (m n : Nat) : Tagged (List.replicate m exFront) (exSound n) { id3v1 := exV1 } where
  front_ := by intro f hf; rw [List.eq_of_mem_replicate hf]; exact exFront_ok
  noId3 := by simp [exSound]
  four := by simp [exSound]
  long := by
    have : exV1.length = 128 := exV1_ok.1
    simp only [Tags.bytes, List.length_append]; omega
  id3v1_ := Or.inl exV1_ok
  lyrics2_ := Or.inr ⟨rfl, by
    simp only [List.append_nil]
    rw [exSound_end, ← List.append_assoc]
    exact not_lyrics2 (by decide)⟩
  lyrics1_ := Or.inr ⟨rfl, by
    simp only [List.append_nil]
    rw [exSound_end, ← List.append_assoc]
    exact not_lyrics1 (by decide)⟩
  ape_ := Or.inr ⟨rfl, by
    simp only [exSound]
    rw [← List.append_assoc, ← List.append_assoc]
    exact not_ape (by decide)⟩

theorem exTagged_length (m n : Nat) (t : Tags) : (mp3File (List.replicate m exFront) (exSound n) t).length = 12 * m + (34 + n) + t.bytes.length := by
  have h1 : (List.replicate m exFront).flatten.length = 12 * m := by
    rw [List.length_flatten, List.map_replicate, List.sum_replicate_nat, Nat.mul_comm]; rfl
  have h2 : (exSound n).length = 34 + n := by
    simp only [exSound, List.length_append, List.length_cons, List.length_replicate, List.length_nil]; omega
  rw [mp3File, List.length_append, List.length_append, h1, h2]
  omega

theorem exPrint_words (k : Nat) : ¬ OccursAt [0x54, 0x41, 0x47] (List.replicate 200 65) k ∧
    ¬ OccursAt mLYRICS200 (List.replicate 200 65) k ∧ ¬ OccursAt mLYRICSEND (List.replicate 200 65) k ∧
    ¬ OccursAt mAPETAGEX (List.replicate 200 65) k := by
  have key : ∀ (w : Bytes) (c : UInt8), c ∈ w → c ≠ 65 → ∀ k, ¬ OccursAt w (List.replicate 200 65) k := by
    rintro w c hc hne k ⟨pre, post, h, _⟩
    have : c ∈ List.replicate 200 (65 : UInt8) := by
      rw [h]; exact List.mem_append_left _ (List.mem_append_right _ hc)
    exact hne (List.eq_of_mem_replicate this)
  exact ⟨key _ 0x54 (by decide) (by decide) k, key _ 0x4C (by decide) (by decide) k,
    key _ 0x4C (by decide) (by decide) k, key _ 0x50 (by decide) (by decide) k⟩

/-- The hypotheses of `mp3_usual_rebuilt` are met: a file with both ID3 tags, rebuilt from its SRS
and a file with the same sound and other tags. -/
example : ∃ srs, srsMp3Create (str "app") (str "/x/a.mp3") (mp3File (List.replicate 1 exFront) (exSound 1000) { id3v1 := exV1 })
      (some (215, List.replicate 200 65)) false none = .ok srs ∧
    ∃ n c, srsMp3Reconstruct srs (mp3File (List.replicate 2 exFront) (exSound 1000) { id3v1 := exV1 }) =
      .ok ⟨mp3File (List.replicate 1 exFront) (exSound 1000) { id3v1 := exV1 }, n, c, true⟩ := by
  obtain ⟨ins, h, _⟩ := mp3_create_succeeds (exTagged 1 1000) (exSound_ok 1000) (app := str "app") (name := str "/x/a.mp3")
    (a := [97, 112, 112]) (n := [97, 46, 109, 112, 51]) (some (215, List.replicate 200 65)) (by decide) (by decide) (by decide) (by decide)
    (by rw [exTagged_length, show (Tags.bytes { id3v1 := exV1 }).length = 128 from exV1_ok.1]; decide)
  refine ⟨_, h, _, _, mp3_usual_rebuilt (exSound_ok 1000) (exSound_ok 1000) (exTagged 1 1000) (exTagged 2 1000) (by decide)
    (by rw [List.length_replicate]; decide) (by rw [List.length_replicate]; decide) exPrint_words h⟩

theorem exJunk_tagged : Tagged (List.replicate 1 exFront) ([0, 0, 0] ++ exSound 300) { id3v1 := exV1 } where
  front_ := (exTagged 1 300).front_
  noId3 := by simp
  four := Nat.le_trans (exTagged 0 300).four (by rw [List.length_append]; omega)
  long := by
    have : exV1.length = 128 := exV1_ok.1
    simp only [Tags.bytes, List.length_append]; omega
  id3v1_ := Or.inl exV1_ok
  lyrics2_ := Or.inr ⟨rfl, by
    simp only [List.append_nil]
    rw [exSound_end, ← List.append_assoc, ← List.append_assoc]
    exact not_lyrics2 (by decide)⟩
  lyrics1_ := Or.inr ⟨rfl, by
    simp only [List.append_nil]
    rw [exSound_end, ← List.append_assoc, ← List.append_assoc]
    exact not_lyrics1 (by decide)⟩
  ape_ := Or.inr ⟨rfl, by
    simp only [exSound]
    rw [← List.append_assoc, ← List.append_assoc, ← List.append_assoc]
    exact not_ape (by decide)⟩

theorem exNoise_tagged : Tagged [] ([0, 0, 0] ++ exSound 300) { id3v1 := exV1 } where
  front_ := by simp
  noId3 := by simp
  four := exJunk_tagged.four
  long := by
    have : exV1.length = 128 := exV1_ok.1
    simp only [Tags.bytes, List.length_append]; omega
  id3v1_ := Or.inl exV1_ok
  lyrics2_ := Or.inr ⟨rfl, by
    simp only [List.append_nil]
    rw [exSound_end, ← List.append_assoc, ← List.append_assoc]
    exact not_lyrics2 (by decide)⟩
  lyrics1_ := Or.inr ⟨rfl, by
    simp only [List.append_nil]
    rw [exSound_end, ← List.append_assoc, ← List.append_assoc]
    exact not_lyrics1 (by decide)⟩
  ape_ := Or.inr ⟨rfl, by
    simp only [exSound]
    rw [← List.append_assoc, ← List.append_assoc, ← List.append_assoc]
    exact not_ape (by decide)⟩

/-- A file without tag in front that does not start with sound, rebuilt from itself. -/
example : ∃ srs, srsMp3Create (str "app") (str "/x/a.mp3") (mp3File [] ([0, 0, 0] ++ exSound 300) { id3v1 := exV1 })
      (some (215, List.replicate 200 65)) false none = .ok srs ∧
    ∃ n c, srsMp3Reconstruct srs (mp3File [] ([0, 0, 0] ++ exSound 300) { id3v1 := exV1 }) =
      .ok ⟨mp3File [] ([0, 0, 0] ++ exSound 300) { id3v1 := exV1 }, n, c, true⟩ := by
  have hs : SoundIn [] ([0, 0, 0] ++ exSound 300) := Or.inr ⟨rfl, by simp⟩
  have hl : (mp3File [] ([0, 0, 0] ++ exSound 300) { id3v1 := exV1 }).length = 465 := by
    have e := exTagged_length 0 300 { id3v1 := exV1 }
    have : (Tags.bytes { id3v1 := exV1 }).length = 128 := exV1_ok.1
    simp only [mp3File, List.length_append, List.replicate_zero, List.flatten_nil, List.length_nil, List.length_cons] at e ⊢
    omega
  obtain ⟨ins, h, _⟩ := mp3_create_succeeds exNoise_tagged hs (app := str "app") (name := str "/x/a.mp3")
    (a := [97, 112, 112]) (n := [97, 46, 109, 112, 51]) (some (215, List.replicate 200 65)) (by decide) (by decide) (by decide) (by decide)
    (by rw [hl]; decide)
  refine ⟨_, h, _, _, mp3_usual_rebuilt hs hs exNoise_tagged exNoise_tagged (by decide)
    (by rw [List.length_replicate]; decide) (by rw [List.length_replicate]; decide) exPrint_words h⟩

set_option maxRecDepth 100000 in
/-- The hypotheses of `mp3_prepended_refused` are met: three other bytes before the sound. -/
example : ∃ srs, srsMp3Create (str "app") (str "/x/a.mp3") (mp3File (List.replicate 1 exFront) (exSound 300) { id3v1 := exV1 })
      (some (215, List.replicate 200 65)) false none = .ok srs ∧
    srsMp3Reconstruct srs (mp3File (List.replicate 1 exFront) ([0, 0, 0] ++ exSound 300) { id3v1 := exV1 }) =
      .error .assertError := by
  obtain ⟨ins, h, _⟩ := mp3_create_succeeds (exTagged 1 300) (exSound_ok 300) (app := str "app") (name := str "/x/a.mp3")
    (a := [97, 112, 112]) (n := [97, 46, 109, 112, 51]) (some (215, List.replicate 200 65)) (by decide) (by decide) (by decide) (by decide)
    (by rw [exTagged_length, show (Tags.bytes { id3v1 := exV1 }).length = 128 from exV1_ok.1]; decide)
  refine ⟨_, h, ?_⟩
  obtain ⟨f, d, us, td, e, hsrs, hfl, hdl, hf, hd, hnum, hsig, hlen, hu⟩ := mp3_usual_srs (exSound_ok 300) (exTagged 1 300)
    (by decide) (by rw [List.length_replicate]; decide) (by rw [List.length_replicate]; decide) exPrint_words h
  obtain ⟨⟨p, hload⟩, _⟩ := mp3_load hsrs hfl hdl hf hd hnum (Or.inr hu)
  rw [← e] at hload
  have hl : td.sig.length = 256 := by rw [hsig]; decide +kernel
  have hsl : ([0, 0, 0] ++ exSound 300).length = 337 := by decide +kernel
  refine mp3_prepended_refused exJunk_tagged (by decide +kernel) (by simp [mSRS]) rfl hload (by omega) (by omega) (by omega) ?_
    (by decide) (by decide)
  rw [hsig]
  refine ⟨⟨[0, 0, 0], (exSound 300).drop 256, by rw [List.append_assoc, List.take_append_drop], rfl⟩, ?_⟩
  rintro j ⟨pre, post, h, rfl⟩
  refine Nat.le_of_not_lt (fun hlt => ?_)
  have h1 := congrArg (fun l : Bytes => l[pre.length]?) h
  rw [List.getElem?_append_left hlt, List.append_assoc, List.getElem?_append_right (Nat.le_refl _), Nat.sub_self] at h1
  have h2 := List.mem_of_getElem? h1
  have h3 : (255 : UInt8) ∈ [(0 : UInt8), 0, 0] := h2
  exact absurd h3 (by decide)

/-- Sound, a Lyrics3 tag and an ID3v1 tag. -/
def exLyrics : Tags := { lyrics1 := lyricsBegin ++ lyricsEnd, id3v1 := exV1 }

theorem exLyrics_length : exLyrics.bytes.length = 148 := by
  simp only [Tags.bytes, exLyrics, List.length_append, exV1_ok.1]; rfl

theorem exLyrics_tagged : Tagged (List.replicate 0 exFront) (exSound 5200) exLyrics where
  front_ := (exTagged 0 5200).front_
  noId3 := (exTagged 0 5200).noId3
  four := (exTagged 0 5200).four
  long := by
    simp only [List.length_append, exLyrics_length]; omega
  id3v1_ := Or.inl exV1_ok
  lyrics2_ := Or.inr ⟨rfl, by
    have e : (List.replicate 0 exFront).flatten ++ (exSound 5200 ++ (exLyrics.ape ++ exLyrics.lyrics1)) =
      (exSound 5200 ++ (lyricsBegin ++ [0x4C, 0x59, 0x52, 0x49, 0x43, 0x53, 0x45, 0x4E])) ++ [0x44] := by
      simp only [List.replicate_zero, List.flatten_nil, List.nil_append, List.append_assoc]; rfl
    rw [e]
    exact not_lyrics2 (by decide)⟩
  lyrics1_ := Or.inl ⟨⟨[], rfl⟩, by decide, [0xFF, 0xFB] ++ List.replicate 152 0x55,
    List.replicate 5048 0x55 ++ (0x55 :: List.replicate 31 0), by
      simp only [List.replicate_zero, List.flatten_nil, List.nil_append]
      show exSound 5200 ++ [] = _
      rw [exSound, List.append_nil, show 5200 = 152 + 5048 from rfl, ← List.replicate_append_replicate]
      simp only [List.append_assoc], by
      rw [List.length_append, List.length_cons, List.length_replicate, List.length_replicate]
      decide, by
      generalize hnear : List.replicate 5048 (0x55 : UInt8) ++ (0x55 :: List.replicate 31 0) = near
      refine ⟨⟨near, lyricsEnd, (List.append_assoc near _ _).symm, rfl⟩, ?_⟩
      rintro j ⟨pre, post, h, rfl⟩
      refine Nat.le_of_not_lt (fun hlt => ?_)
      have h1 := congrArg (fun l : Bytes => l[pre.length]?) h
      rw [List.getElem?_append_left hlt, List.append_assoc, List.getElem?_append_right (Nat.le_refl _), Nat.sub_self] at h1
      have h2 := List.mem_of_getElem? h1
      rw [← hnear] at h2
      simp only [List.mem_append, List.mem_cons, List.mem_replicate] at h2
      rcases h2 with ⟨_, h2⟩ | h2 | ⟨_, h2⟩ <;> exact absurd h2 (by decide)⟩
  ape_ := Or.inr ⟨rfl, by
    simp only [exSound]
    rw [← List.append_assoc, ← List.append_assoc]
    exact not_ape (by decide)⟩

/-- C39 is false in general: this file has less than 5100 bytes around its sound. -/
theorem mp3_lyrics3_not_rebuilt : ¬ mp3_rebuilt := by
  intro hall
  obtain ⟨ins, h, hlen⟩ := mp3_create_succeeds exLyrics_tagged (exSound_ok _) (app := str "app") (name := str "/x/a.mp3")
    (a := [97, 112, 112]) (n := [97, 46, 109, 112, 51]) none (by decide) (by decide) (by decide) (by decide)
    (by rw [exTagged_length, exLyrics_length]; decide)
  obtain ⟨r, hr, _⟩ := hall _ _ _ _ _ _ _ _ _ _ (exSound_is _) exLyrics_tagged exLyrics_tagged h
  rw [mp3_lyrics3_never_rebuilt (exSound_ok _) exLyrics_tagged (by decide) exV1_ok h] at hr
  · simp at hr
  · rw [mp3File, List.length_append, List.length_append, hlen, exLyrics_length]
    simp only [List.replicate_zero, List.flatten_nil, List.length_nil, mp3Fingerprint, exLyrics, List.length_cons, exV1_ok.1]
    omega

/-- C39: when the sound of the SRS is not found in the given file, nothing is rebuilt and the
program says so, before anything is extracted. -/
theorem mp3_not_found {srs main : Bytes} {f : FileData} {tracks found : Tracks} {fp : Option (Nat × Bytes)}
    (hl : mp3LoadSrs srs = .ok (f, tracks, fp)) (hf : mp3Find tracks main = .ok found)
    (hn : ∃ t ∈ found, t.2.matchOffset = -1) : srsMp3Reconstruct srs main = .error .other := by
  unfold srsMp3Reconstruct
  obtain ⟨t, ht, he⟩ := hn
  rw [hl, ok_bind]
  dsimp only
  rw [hf, ok_bind, if_pos]
  · rfl
  · simp only [mp3Unlocated, List.any_eq_true]
    exact ⟨t, ht, by simp [he]⟩

end Rescene.Props
