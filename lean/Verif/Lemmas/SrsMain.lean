import Verif.Model.SrsMain
import Verif.Lemmas.Bytes
import Verif.Lemmas.Blocks
/-
The first bytes of SRS files, for C76.
-/
namespace Rescene

theorem kind_eq {dig : Nat → Bool} {lower : Str → Str} {m : MediaFile} (hl : 14 ≤ m.raw.length) (hr : ¬ [0x52, 0x61] <+: m.raw) :
    m.kind dig lower = markerKind lower m.path m.raw (m.raw.take 14) := by
  unfold MediaFile.kind
  have h1 : ¬ mRAR4 <+: m.raw.take 14 := fun h => hr ((show [0x52, 0x61] <+: mRAR4 from ⟨_, rfl⟩).trans (h.trans (List.take_prefix _ _)))
  have h2 : ¬ mRAR5 <+: m.raw.take 14 := fun h => hr ((show [0x52, 0x61] <+: mRAR5 from ⟨_, rfl⟩).trans (h.trans (List.take_prefix _ _)))
  simp only [h1, false_and, if_false, h2]
  rw [if_neg (by rw [List.length_take]; omega)]

theorem riffLoop_prefix {mode : RiffMode} {enter : RiffChunk → Bool} {peek : Bool} {file : Bytes}
    {f : Bytes → RiffItem → Res (Bytes × Bool)} (hf : ∀ s it r, f s it = .ok r → s <+: r.1) :
    ∀ (fuel pos : Nat) (s r : Bytes), riffLoop mode enter peek file f fuel pos s = .ok r → s <+: r := by
  intro fuel
  induction fuel with
  | zero => intro pos s r h; simp [riffLoop] at h
  | succ fuel ih =>
    intro pos s r h
    unfold riffLoop at h
    simp only [bind_eq_ok] at h
    obtain ⟨o, _, h⟩ := h
    cases o with
    | none => simp only [pure_eq_ok, Except.ok.injEq] at h; subst h; exact List.prefix_rfl
    | some x =>
      obtain ⟨it, q⟩ := x
      simp only [bind_eq_ok] at h
      obtain ⟨⟨s', go⟩, h1, h⟩ := h
      refine (hf _ _ _ h1).trans ?_
      dsimp only at h
      split at h
      · exact ih _ _ _ h
      · split at h
        · simp only [bind_eq_ok] at h
          obtain ⟨_, _, h⟩ := h
          simp only [pure_eq_ok, Except.ok.injEq] at h
          subst h; exact List.prefix_rfl
        · simp only [pure_eq_ok, Except.ok.injEq] at h
          subst h; exact List.prefix_rfl

theorem movLoop_prefix {mode : MovMode} {how : Bytes → MovHow} {file : Bytes} {f : Bytes → MovItem → Res Bytes}
    (hf : ∀ s it r, f s it = .ok r → s <+: r) :
    ∀ (fuel pos : Nat) (s r : Bytes), movLoop mode how file f fuel pos s = .ok r → s <+: r := by
  intro fuel
  induction fuel with
  | zero => intro pos s r h; simp [movLoop] at h
  | succ fuel ih =>
    intro pos s r h
    unfold movLoop at h
    simp only [bind_eq_ok] at h
    obtain ⟨o, _, h⟩ := h
    cases o with
    | none => simp only [pure_eq_ok, Except.ok.injEq] at h; subst h; exact List.prefix_rfl
    | some a =>
      simp only [bind_eq_ok] at h
      obtain ⟨⟨d, q⟩, _, s', h1, h⟩ := h
      exact (hf _ _ _ h1).trans (ih _ _ _ h)

theorem mkvLoop_prefix {mode : EbmlMode} {again : Bool} {how : Bytes → EbmlElem → EbmlHow} {file : Bytes}
    {f : Bytes → EbmlElem → Bytes → Res (Bytes × Bool)} (hf : ∀ s e d r, f s e d = .ok r → s <+: r.1) :
    ∀ (fuel pos : Nat) (s : Bytes) (done : Bool) (r : Bytes), mkvLoop mode again how file f fuel pos s done = .ok r → s <+: r := by
  intro fuel
  induction fuel with
  | zero => intro pos s dn r h; simp [mkvLoop] at h
  | succ fuel ih =>
    intro pos s dn r h
    unfold mkvLoop at h
    simp only [bind_eq_ok] at h
    obtain ⟨o, _, h⟩ := h
    cases o with
    | none => simp only [pure_eq_ok, Except.ok.injEq] at h; subst h; exact List.prefix_rfl
    | some e =>
      dsimp only at h
      split at h
      · simp only [pure_eq_ok, Except.ok.injEq] at h; subst h; exact List.prefix_rfl
      · simp only [bind_eq_ok] at h
        obtain ⟨⟨d, q⟩, _, ⟨s', dn'⟩, h1, h⟩ := h
        refine (hf _ _ _ _ h1).trans ?_
        dsimp only at h
        split at h
        · simp only [pure_eq_ok, Except.ok.injEq] at h
          subst h; exact List.prefix_rfl
        · exact ih _ _ _ _ h

theorem flacLoop_prefix {file : Bytes} {f : Bytes → FlacBlock → Res (Bytes × FlacNext)} (hf : ∀ s b r, f s b = .ok r → s <+: r.1) :
    ∀ (fuel pos : Nat) (s r : Bytes), flacLoop file f fuel pos s = .ok r → s <+: r := by
  intro fuel
  induction fuel with
  | zero => intro pos s r h; simp [flacLoop] at h
  | succ fuel ih =>
    intro pos s r h
    unfold flacLoop at h
    simp only [bind_eq_ok] at h
    obtain ⟨o, _, h⟩ := h
    cases o with
    | none => simp only [pure_eq_ok, Except.ok.injEq] at h; subst h; exact List.prefix_rfl
    | some b =>
      simp only [bind_eq_ok] at h
      obtain ⟨⟨s', n⟩, h1, h⟩ := h
      refine (hf _ _ _ h1).trans ?_
      dsimp only at h
      split at h
      · simp only [pure_eq_ok, Except.ok.injEq] at h
        subst h; exact List.prefix_rfl
      · exact ih _ _ _ h

theorem asfPacketLoop_prefix {file : Bytes} {psize : Int} {f : Bytes → Nat → Bytes → Res (Bytes × Bool)}
    (hf : ∀ s o d r, f s o d = .ok r → s <+: r.1) :
    ∀ (n pos : Nat) (s : Bytes) (r : Bytes × Bool), asfPacketLoop file psize f n pos s = .ok r → s <+: r.1 := by
  intro n
  induction n with
  | zero => intro pos s r h; simp [asfPacketLoop] at h; subst h; exact List.prefix_rfl
  | succ n ih =>
    intro pos s r h
    unfold asfPacketLoop at h
    simp only [bind_eq_ok] at h
    obtain ⟨d, _, ⟨s', go⟩, h1, h⟩ := h
    refine (hf _ _ _ _ h1).trans ?_
    dsimp only at h
    split at h
    · exact ih _ _ _ h
    · simp only [pure_eq_ok, Except.ok.injEq] at h
      subst h; exact List.prefix_rfl

theorem wmvCreateLoop_prefix {own : Res Bytes} {file : Bytes} :
    ∀ (fuel pos : Nat) (s r : Bytes), wmvCreateLoop own file fuel pos s = .ok r → s <+: r := by
  intro fuel
  induction fuel with
  | zero => intro pos s r h; simp [wmvCreateLoop] at h
  | succ fuel ih =>
    intro pos s r h
    unfold wmvCreateLoop at h
    simp only [bind_eq_ok] at h
    obtain ⟨o, _, h⟩ := h
    cases o with
    | none => simp only [pure_eq_ok, Except.ok.injEq] at h; subst h; exact List.prefix_rfl
    | some o =>
      refine (List.prefix_append s o.raw).trans ?_
      dsimp only at h
      split at h
      · simp only [bind_eq_ok] at h
        obtain ⟨⟨n, ps⟩, _, ⟨s', go⟩, h1, b, _, h⟩ := h
        dsimp only at h h1
        refine (asfPacketLoop_prefix (f := wmvCreatePacket ps) ?_ _ _ _ _ h1).trans ?_
        · intro s o d r h
          unfold wmvCreatePacket at h
          simp only [bind_eq_ok, pure_eq_ok, Except.ok.injEq] at h
          obtain ⟨p, _, rfl⟩ := h
          exact List.prefix_append _ _
        · split at h
          · simp at h
          · exact (List.prefix_append _ _).trans (ih _ _ _ h)
      · simp only [bind_eq_ok] at h
        obtain ⟨⟨d, q⟩, _, h⟩ := h
        exact (List.prefix_append _ _).trans (ih _ _ _ h)

theorem aviCreateItem_prefix {own : Res Bytes} {s : Bytes} {it : RiffItem} {r : Bytes × Bool} (h : aviCreateItem own s it = .ok r) :
    s ++ it.chunk.header <+: r.1 := by
  unfold aviCreateItem at h
  dsimp only at h
  split at h
  · split at h
    · simp only [bind_eq_ok, pure_eq_ok, Except.ok.injEq] at h
      obtain ⟨b, _, rfl⟩ := h
      exact List.prefix_append _ _
    · simp only [Except.ok.injEq] at h; subst h; exact List.prefix_rfl
  · simp only [Except.ok.injEq] at h
    subst h
    dsimp only
    split
    · exact List.prefix_append _ _
    · exact (List.prefix_append _ _).trans (List.prefix_append _ _)

theorem mp4CreateItem_prefix {own : Res Bytes} {s : Bytes} {it : MovItem} {r : Bytes} (h : mp4CreateItem own s it = .ok r) :
    s <+: r ∧ (it.atom.type ≠ aMdat → s ++ it.atom.header <+: r) := by
  unfold mp4CreateItem at h
  split at h
  · rename_i ht
    simp only [bind_eq_ok, pure_eq_ok, Except.ok.injEq] at h
    obtain ⟨b, _, rfl⟩ := h
    exact ⟨List.prefix_append _ _, fun hn => absurd ht hn⟩
  · simp only [Except.ok.injEq] at h; subst h
    exact ⟨List.prefix_append _ _, fun _ => by rw [← List.append_assoc]; exact List.prefix_append _ _⟩

theorem mkvCreateItem_prefix {own : Res Bytes} {s : Bytes} {e : EbmlElem} {d : Bytes} {r : Bytes × Bool}
    (h : mkvCreateItem own s e d = .ok r) : s ++ e.header <+: r.1 := by
  unfold mkvCreateItem at h
  dsimp only at h
  split at h
  · simp only [Except.ok.injEq] at h; subst h; exact List.prefix_append _ _
  · split at h
    · simp only [bind_eq_ok, pure_eq_ok, Except.ok.injEq] at h
      obtain ⟨b, _, rfl⟩ := h
      exact List.prefix_append _ _
    · simp only [Except.ok.injEq] at h; subst h; exact List.prefix_append _ _

theorem takePrefix {l m : Bytes} {n : Nat} (h : l.take n <+: m) {k : Nat} (hk : k ≤ n) : l.take k <+: m :=
  (List.take_prefix_take_left hk).trans h

/-- An AVI file's SRS starts with the same header. -/
theorem avi_srs_start {app name : Str} {size crc : Nat} {tracks : Tracks} {big : Bool} {sample srs : Bytes}
    (hs : 8 ≤ sample.length) (h : aviCreateSrs app name size crc tracks big sample = .ok srs) : sample.take 8 <+: srs := by
  unfold aviCreateSrs riffWalk riffLoop at h
  simp only [bind_eq_ok] at h
  obtain ⟨o, h1, h⟩ := h
  cases o with
  | none =>
    exfalso
    unfold riffNext riffRead at h1
    simp only [bind_eq_ok] at h1
    obtain ⟨c, h2, h3⟩ := h1
    rw [if_neg (by omega)] at h2
    cases c with
    | none =>
      simp only [bind_eq_ok] at h2
      obtain ⟨n, _, h2⟩ := h2
      repeat' split at h2
      all_goals simp at h2
    | some c =>
      obtain ⟨c, p⟩ := c
      dsimp only at h3
      split at h3
      · simp at h3
      · simp only [bind_eq_ok] at h3
        obtain ⟨x, _, h3⟩ := h3
        simp at h3
  | some x =>
    obtain ⟨it, q⟩ := x
    simp only [bind_eq_ok] at h
    obtain ⟨⟨s', go⟩, h2, h⟩ := h
    have hp := aviCreateItem_prefix h2
    have hr : s' <+: srs := by
      dsimp only at h
      split at h
      · exact riffLoop_prefix (fun s it r h => (List.prefix_append _ _).trans (aviCreateItem_prefix h)) _ _ _ _ h
      · simp only [Bool.false_eq_true, if_false, pure_eq_ok, Except.ok.injEq] at h
        subst h; exact List.prefix_rfl
    refine List.IsPrefix.trans ?_ (hp.trans hr)
    rw [List.nil_append]
    unfold riffNext at h1
    simp only [bind_eq_ok] at h1
    obtain ⟨c, h3, h1⟩ := h1
    cases c with
    | none => simp at h1
    | some c =>
      obtain ⟨c, p⟩ := c
      have hc : sample.take 8 <+: c.header := by
        unfold riffRead at h3
        rw [if_neg (by omega)] at h3
        simp only [bind_eq_ok] at h3
        obtain ⟨n, _, h3⟩ := h3
        repeat' split at h3
        all_goals simp only [pure_eq_ok, Except.ok.injEq, Option.some.injEq, Prod.mk.injEq, throw_eq_error, reduceCtorEq] at h3
        all_goals
          obtain ⟨rfl, _⟩ := h3
          first
          | exact List.prefix_append _ _
          | exact List.prefix_rfl
      dsimp only at h1
      split at h1
      · simp only [pure_eq_ok, Except.ok.injEq, Option.some.injEq, Prod.mk.injEq] at h1
        obtain ⟨rfl, _⟩ := h1
        exact hc
      · simp only [bind_eq_ok] at h1
        obtain ⟨⟨d, pad, q'⟩, _, h1⟩ := h1
        simp only [pure_eq_ok, Except.ok.injEq, Option.some.injEq, Prod.mk.injEq] at h1
        obtain ⟨rfl, _⟩ := h1
        exact hc

theorem mp4_srs_start {app name : Str} {size crc : Nat} {tracks : Tracks} {big : Bool} {sample srs : Bytes}
    (hs : 8 ≤ sample.length) (ht : (sample.take 8).drop 4 ≠ aMdat) (h : mp4CreateSrs app name size crc tracks big sample = .ok srs) :
    sample.take 8 <+: srs := by
  unfold mp4CreateSrs movWalk movLoop at h
  simp only [bind_eq_ok] at h
  obtain ⟨o, h1, h⟩ := h
  unfold movRead at h1
  rw [if_neg (by omega)] at h1
  simp only [bind_eq_ok] at h1
  obtain ⟨n, _, ⟨sz, hd⟩, h3, h1⟩ := h1
  have hh : sample.take 8 <+: hd := by
    split at h3
    · simp only [bind_eq_ok, pure_eq_ok, Except.ok.injEq, Prod.mk.injEq] at h3
      obtain ⟨_, _, _, rfl⟩ := h3
      exact List.prefix_append _ _
    · repeat' split at h3
      all_goals
        simp only [Except.ok.injEq, Prod.mk.injEq] at h3
        obtain ⟨_, rfl⟩ := h3
        exact List.prefix_rfl
  dsimp only at h1
  rw [if_neg (by simp)] at h1
  simp only [pure_eq_ok, Except.ok.injEq] at h1
  subst h1
  simp only [bind_eq_ok] at h
  obtain ⟨⟨d, q⟩, _, s', h2, h⟩ := h
  have hp := (mp4CreateItem_prefix h2).2 ht
  refine List.IsPrefix.trans ?_ (hp.trans (movLoop_prefix (fun s it r h => (mp4CreateItem_prefix h).1) _ _ _ _ h))
  exact hh

theorem mkv_srs_start {app name : Str} {size crc : Nat} {tracks : MkvTracks} {big : Bool} {sample srs : Bytes}
    (hs : mMKV <+: sample) (h5 : 5 ≤ sample.length) (h : mkvCreateSrs app name size crc tracks big sample = .ok srs) :
    mMKV <+: srs := by
  obtain ⟨t, rfl⟩ := hs
  unfold mkvCreateSrs mkvWalk mkvLoop at h
  simp only [bind_eq_ok] at h
  obtain ⟨o, h1, h⟩ := h
  unfold ebmlRead at h1
  rw [if_neg (by omega)] at h1
  have hu : uintLength (0x1A : UInt8).toNat = 4 := by decide
  cases t with
  | nil => simp [mMKV] at h5
  | cons c t =>
    simp only [mMKV, List.cons_append, List.nil_append, List.drop_zero, hu, Nat.zero_add] at h1
    rw [if_neg (by decide)] at h1
    simp only [List.drop_succ_cons, List.drop_zero] at h1
    split at h1
    · simp at h1
    · rename_i hk
      simp only [bind_eq_ok] at h1
      obtain ⟨n, _, h1⟩ := h1
      have he : ∃ e, o = some e ∧ mMKV <+: e.header := by
        have hpre : ∀ k, mMKV <+: readAt (0x1A :: 0x45 :: 0xDF :: 0xA3 :: c :: t) 0 (4 + k) := by
          intro k
          refine ⟨(c :: t).take k, ?_⟩
          simp [readAt, mMKV, Nat.add_comm 4 k]
        rw [if_neg (by simp)] at h1
        split at h1
        · simp only [bind_eq_ok] at h1
          obtain ⟨⟨bl, q⟩, _, h1⟩ := h1
          simp only [pure_eq_ok, Except.ok.injEq] at h1
          subst h1
          exact ⟨_, rfl, hpre _⟩
        · simp only [pure_eq_ok, Except.ok.injEq] at h1
          subst h1
          exact ⟨_, rfl, hpre _⟩
      obtain ⟨e, rfl, he⟩ := he
      simp only [Bool.false_eq_true, if_false, bind_eq_ok] at h
      obtain ⟨⟨d, q⟩, _, ⟨s', dn⟩, h2, h⟩ := h
      have hp := mkvCreateItem_prefix h2
      rw [List.nil_append] at hp
      refine he.trans (hp.trans ?_)
      dsimp only at h
      split at h
      · simp only [pure_eq_ok, Except.ok.injEq] at h
        subst h; exact List.prefix_rfl
      · exact mkvLoop_prefix (fun s e d r h => (List.prefix_append _ _).trans (mkvCreateItem_prefix h)) _ _ _ _ _ h

theorem wmv_srs_start {app name : Str} {size crc : Nat} {tracks : Tracks} {pad : Option Bytes} {big : Bool} {sample srs : Bytes}
    (hs : 24 ≤ sample.length) (h : wmvCreateSrs app name size crc tracks pad big sample = .ok srs) :
    sample.take 24 <+: srs := by
  unfold wmvCreateSrs wmvCreateLoop at h
  simp only [bind_eq_ok] at h
  obtain ⟨o, h1, h⟩ := h
  have he : ∃ e, o = some e ∧ sample.take 24 <+: e.raw := by
    unfold asfRead at h1
    rw [if_neg (by omega)] at h1
    simp only [bind_eq_ok] at h1
    obtain ⟨n, _, h1⟩ := h1
    rw [if_neg (by simp), if_neg (by simp)] at h1
    simp only [pure_eq_ok, Except.ok.injEq] at h1
    subst h1
    exact ⟨_, rfl, List.prefix_append _ _⟩
  obtain ⟨e, rfl, he⟩ := he
  refine he.trans ?_
  dsimp only at h
  rw [List.nil_append] at h
  split at h
  · simp only [bind_eq_ok] at h
    obtain ⟨⟨n, ps⟩, _, ⟨s', go⟩, h1, b, _, h⟩ := h
    dsimp only at h h1
    refine (asfPacketLoop_prefix (f := wmvCreatePacket ps) ?_ _ _ _ _ h1).trans ?_
    · intro s o d r h
      unfold wmvCreatePacket at h
      simp only [bind_eq_ok, pure_eq_ok, Except.ok.injEq] at h
      obtain ⟨p, _, rfl⟩ := h
      exact List.prefix_append _ _
    · split at h
      · simp at h
      · exact (List.prefix_append _ _).trans (wmvCreateLoop_prefix _ _ _ _ h)
  · simp only [bind_eq_ok] at h
    obtain ⟨⟨d, q⟩, _, h⟩ := h
    exact (List.prefix_append _ _).trans (wmvCreateLoop_prefix _ _ _ _ h)

theorem flacCreateBlock_prefix {file : Bytes} {ins : Res Bytes} {s : Bytes} {b : FlacBlock} {r : Bytes × FlacNext}
    (h : flacCreateBlock file ins s b = .ok r) : s ++ b.hdr <+: r.1 ∧
      (b.ty ≠ .magic → b.isFrame = false → r = (s ++ (b.hdr ++ flacContents file b), .read)) := by
  unfold flacCreateBlock at h
  simp only [bind_eq_ok] at h
  obtain ⟨o, h1, h⟩ := h
  have ho : s ++ b.hdr <+: o ∧ (b.ty ≠ .magic → o = s ++ b.hdr) := by
    split at h1
    · rename_i ht
      simp only [bind_eq_ok, pure_eq_ok, Except.ok.injEq] at h1
      obtain ⟨i, _, rfl⟩ := h1
      exact ⟨List.prefix_append _ _, fun hn => absurd ht hn⟩
    · simp only [Except.ok.injEq] at h1
      subst h1
      exact ⟨List.prefix_rfl, fun _ => rfl⟩
  split at h
  · rename_i hf
    simp only [pure_eq_ok, Except.ok.injEq] at h
    subst h
    exact ⟨ho.1, fun _ hn => by rw [hf] at hn; exact absurd hn (by simp)⟩
  · simp only [pure_eq_ok, Except.ok.injEq] at h
    subst h
    exact ⟨ho.1.trans (List.prefix_append _ _), fun hn _ => by rw [ho.2 hn, List.append_assoc]⟩

theorem fileParse_long {b : Bytes} {f : FileData} (h : fileParse b = .ok f) : 18 ≤ b.length := by
  unfold fileParse at h
  split at h
  · simp at h
  · simp only [bind_eq_ok] at h
    obtain ⟨_, _, n, _, _, _, k, _, _, _, _, _, _, h1, _⟩ := h
    have := (unpackAt_ok_iff.1 h1).1
    omega

theorem readAt_le (file : Bytes) (p n : Nat) : (readAt file p n).length ≤ file.length := by
  rw [readAt_length]; omega

theorem riffNext_le {mode : RiffMode} {enter : RiffChunk → Bool} {file : Bytes} {pos q : Nat} {it : RiffItem}
    (h : riffNext mode enter file pos = .ok (some (it, q))) : it.data.length ≤ file.length := by
  unfold riffNext at h
  simp only [bind_eq_ok] at h
  obtain ⟨c, _, h⟩ := h
  cases c with
  | none => simp at h
  | some c =>
    obtain ⟨c, p⟩ := c
    dsimp only at h
    split at h
    · simp only [pure_eq_ok, Except.ok.injEq, Option.some.injEq, Prod.mk.injEq] at h
      obtain ⟨rfl, _⟩ := h
      exact Nat.zero_le _
    · simp only [bind_eq_ok] at h
      obtain ⟨⟨d, pad, q'⟩, h1, h⟩ := h
      simp only [pure_eq_ok, Except.ok.injEq, Option.some.injEq, Prod.mk.injEq] at h
      obtain ⟨rfl, _⟩ := h
      unfold riffContents at h1
      dsimp only at h1
      repeat' split at h1
      all_goals
        simp only [Except.ok.injEq, Prod.mk.injEq, reduceCtorEq] at h1
      all_goals
        obtain ⟨rfl, _⟩ := h1
        exact readAt_le _ _ _

theorem riffLoop_keeps {σ : Type} {mode : RiffMode} {enter : RiffChunk → Bool} {peek : Bool} {file : Bytes}
    {f : σ → RiffItem → Res (σ × Bool)} {P : σ → Prop}
    (hf : ∀ s it r, it.data.length ≤ file.length → P s → f s it = .ok r → P r.1) :
    ∀ (fuel pos : Nat) (s r : σ), P s → riffLoop mode enter peek file f fuel pos s = .ok r → P r := by
  intro fuel
  induction fuel with
  | zero => intro pos s r _ h; simp [riffLoop] at h
  | succ fuel ih =>
    intro pos s r hs h
    unfold riffLoop at h
    simp only [bind_eq_ok] at h
    obtain ⟨o, h0, h⟩ := h
    cases o with
    | none => simp only [pure_eq_ok, Except.ok.injEq] at h; subst h; exact hs
    | some x =>
      obtain ⟨it, q⟩ := x
      simp only [bind_eq_ok] at h
      obtain ⟨⟨s', go⟩, h1, h⟩ := h
      have hs' := hf _ _ _ (riffNext_le h0) hs h1
      dsimp only at h
      split at h
      · exact ih _ _ _ hs' h
      · split at h
        · simp only [bind_eq_ok] at h
          obtain ⟨_, _, h⟩ := h
          simp only [pure_eq_ok, Except.ok.injEq] at h
          subst h; exact hs'
        · simp only [pure_eq_ok, Except.ok.injEq] at h
          subst h; exact hs'

theorem avi_load_long {srs : Bytes} {x : FileData × Tracks} (h : aviLoadSrs srs = .ok x) : 18 ≤ srs.length := by
  unfold aviLoadSrs at h
  simp only [bind_eq_ok] at h
  obtain ⟨⟨f, t⟩, h1, h⟩ := h
  have := riffLoop_keeps (P := fun s : Option FileData × Tracks => s.1.isSome = true → 18 ≤ srs.length) ?_ _ _ _ _ (by simp) h1
  · cases f with
    | none => simp at h
    | some f => exact this rfl
  · intro s it r hl hs h
    unfold aviLoadItem at h
    repeat' split at h
    · simp only [Except.ok.injEq] at h; subst h; exact hs
    · simp only [bind_eq_ok] at h
      obtain ⟨f, hf, h⟩ := h
      simp only [pure_eq_ok, Except.ok.injEq] at h
      subst h
      exact fun _ => Nat.le_trans (fileParse_long hf) hl
    · simp only [bind_eq_ok] at h
      obtain ⟨f, hf, h⟩ := h
      simp only [pure_eq_ok, Except.ok.injEq] at h
      subst h
      exact hs
    · simp only [Except.ok.injEq] at h; subst h; exact hs
    · simp only [Except.ok.injEq] at h; subst h; exact hs

theorem movContents_le {how : MovHow} {file : Bytes} {a : MovAtom} {x : Bytes × Nat} (h : movContents how file a = .ok x) :
    x.1.length ≤ file.length := by
  unfold movContents at h
  dsimp only at h
  repeat' split at h
  all_goals
    simp only [Except.ok.injEq, reduceCtorEq] at h
  all_goals
    subst h
    first
    | exact Nat.zero_le _
    | exact readAt_le _ _ _
    | (simp only [List.length_drop]; omega)

theorem movLoop_keeps {σ : Type} {mode : MovMode} {how : Bytes → MovHow} {file : Bytes} {f : σ → MovItem → Res σ} {P : σ → Prop}
    (hf : ∀ s it r, it.data.length ≤ file.length → P s → f s it = .ok r → P r) :
    ∀ (fuel pos : Nat) (s r : σ), P s → movLoop mode how file f fuel pos s = .ok r → P r := by
  intro fuel
  induction fuel with
  | zero => intro pos s r _ h; simp [movLoop] at h
  | succ fuel ih =>
    intro pos s r hs h
    unfold movLoop at h
    simp only [bind_eq_ok] at h
    obtain ⟨o, h0, h⟩ := h
    cases o with
    | none => simp only [pure_eq_ok, Except.ok.injEq] at h; subst h; exact hs
    | some a =>
      simp only [bind_eq_ok] at h
      obtain ⟨⟨d, q⟩, h2, s', h1, h⟩ := h
      exact ih _ _ _ (hf _ _ _ (movContents_le h2) hs h1) h

theorem mp4_load_long {srs : Bytes} {x : FileData × Tracks} (h : mp4LoadSrs srs = .ok x) : 18 ≤ srs.length := by
  unfold mp4LoadSrs at h
  simp only [bind_eq_ok] at h
  obtain ⟨⟨f, t⟩, h1, h⟩ := h
  have := movLoop_keeps (P := fun s : Option FileData × Tracks => s.1.isSome = true → 18 ≤ srs.length) ?_ _ _ _ _ (by simp) h1
  · cases f with
    | none => simp at h
    | some f => exact this rfl
  · intro s it r hl hs h
    unfold mp4LoadItem at h
    repeat' split at h
    · simp only [bind_eq_ok] at h
      obtain ⟨f, hf, h⟩ := h
      simp only [pure_eq_ok, Except.ok.injEq] at h
      subst h
      exact fun _ => Nat.le_trans (fileParse_long hf) hl
    · simp only [bind_eq_ok] at h
      obtain ⟨f, hf, h⟩ := h
      simp only [pure_eq_ok, Except.ok.injEq] at h
      subst h
      exact hs
    · simp only [Except.ok.injEq] at h; subst h; exact hs

theorem ebmlContents_le {mode : EbmlMode} {how : EbmlHow} {file : Bytes} {e : EbmlElem} {x : Bytes × Nat}
    (h : ebmlContents mode how file e = .ok x) : x.1.length ≤ file.length := by
  unfold ebmlContents at h
  dsimp only at h
  repeat' split at h
  all_goals
    simp only [Except.ok.injEq, reduceCtorEq] at h
  all_goals
    subst h
    first
    | exact Nat.zero_le _
    | exact readAt_le _ _ _
    | (simp only [List.length_drop]; omega)

theorem mkvLoop_keeps {σ : Type} {mode : EbmlMode} {again : Bool} {how : σ → EbmlElem → EbmlHow} {file : Bytes}
    {f : σ → EbmlElem → Bytes → Res (σ × Bool)} {P : σ → Prop}
    (hf : ∀ s e d r, d.length ≤ file.length → P s → f s e d = .ok r → P r.1) :
    ∀ (fuel pos : Nat) (s : σ) (done : Bool) (r : σ), P s → mkvLoop mode again how file f fuel pos s done = .ok r → P r := by
  intro fuel
  induction fuel with
  | zero => intro pos s dn r _ h; simp [mkvLoop] at h
  | succ fuel ih =>
    intro pos s dn r hs h
    unfold mkvLoop at h
    simp only [bind_eq_ok] at h
    obtain ⟨o, _, h⟩ := h
    cases o with
    | none => simp only [pure_eq_ok, Except.ok.injEq] at h; subst h; exact hs
    | some e =>
      dsimp only at h
      split at h
      · simp only [pure_eq_ok, Except.ok.injEq] at h; subst h; exact hs
      · simp only [bind_eq_ok] at h
        obtain ⟨⟨d, q⟩, h2, ⟨s', dn'⟩, h1, h⟩ := h
        have hs' := hf _ _ _ _ (ebmlContents_le h2) hs h1
        dsimp only at h
        split at h
        · simp only [pure_eq_ok, Except.ok.injEq] at h
          subst h; exact hs'
        · exact ih _ _ _ _ hs' h

theorem mkv_load_long {srs : Bytes} {f : FileData} {t : MkvTracks} (h : mkvLoadSrs srs = .ok (some f, t)) : 18 ≤ srs.length := by
  unfold mkvLoadSrs at h
  simp only [bind_eq_ok, pure_eq_ok, Except.ok.injEq, Prod.mk.injEq] at h
  obtain ⟨s, h1, hf, _⟩ := h
  have := mkvLoop_keeps (P := fun s : MkvLoad => s.file.isSome = true → 18 ≤ srs.length) ?_ _ _ _ _ _ (by simp) h1
  · exact this (by rw [hf]; rfl)
  · intro s e d r hl hs h
    unfold mkvLoadItem at h
    repeat' split at h
    all_goals
      first
      | (simp only [Except.ok.injEq] at h; subst h; exact hs)
      | (simp only [bind_eq_ok] at h
         obtain ⟨g, hg, h⟩ := h
         simp only [pure_eq_ok, Except.ok.injEq] at h
         subst h
         first
         | exact hs
         | exact fun _ => Nat.le_trans (fileParse_long hg) hl)

theorem flacLoop_keeps {σ : Type} {file : Bytes} {f : σ → FlacBlock → Res (σ × FlacNext)} {P : σ → Prop}
    (hf : ∀ s b r, P s → f s b = .ok r → P r.1) :
    ∀ (fuel pos : Nat) (s r : σ), P s → flacLoop file f fuel pos s = .ok r → P r := by
  intro fuel
  induction fuel with
  | zero => intro pos s r _ h; simp [flacLoop] at h
  | succ fuel ih =>
    intro pos s r hs h
    unfold flacLoop at h
    simp only [bind_eq_ok] at h
    obtain ⟨o, _, h⟩ := h
    cases o with
    | none => simp only [pure_eq_ok, Except.ok.injEq] at h; subst h; exact hs
    | some b =>
      simp only [bind_eq_ok] at h
      obtain ⟨⟨s', n⟩, h1, h⟩ := h
      have hs' := hf _ _ _ hs h1
      dsimp only at h
      split at h
      · simp only [pure_eq_ok, Except.ok.injEq] at h
        subst h; exact hs'
      · exact ih _ _ _ hs' h

theorem flac_load_long {srs : Bytes} {x : FileData × Tracks × Option (Nat × Bytes)} (h : flacLoadSrs srs = .ok x) :
    18 ≤ srs.length := by
  unfold flacLoadSrs flacAll at h
  simp only [bind_eq_ok] at h
  obtain ⟨s, h1, h⟩ := h
  have := flacLoop_keeps (P := fun s : FlacLoad => s.file.isSome = true → 18 ≤ srs.length) ?_ _ _ _ _ (by simp) h1
  · cases hf : s.file with
    | none => rw [hf] at h; simp at h
    | some f => exact this (by rw [hf]; rfl)
  · intro s b r hs h
    unfold flacLoadBlock at h
    simp only [bind_eq_ok] at h
    obtain ⟨⟨s', n⟩, h1, h⟩ := h
    have hs' : s'.file.isSome = true → 18 ≤ srs.length := by
      repeat' split at h1
      all_goals
        simp only [bind_eq_ok, pure_eq_ok, Except.ok.injEq, Prod.mk.injEq] at h1
      · obtain ⟨f, hf, rfl, _⟩ := h1
        exact fun _ => Nat.le_trans (fileParse_long hf) (readAt_le _ _ _)
      · obtain ⟨f, hf, rfl, _⟩ := h1; exact hs
      · obtain ⟨_, _, f, hf, rfl, _⟩ := h1; exact hs
      · obtain ⟨rfl, _⟩ := h1; exact hs
    dsimp only at h
    split at h
    all_goals
      simp only [pure_eq_ok, Except.ok.injEq] at h
      subst h
      exact hs'

theorem asfContents_le {file : Bytes} {o : AsfObj} {x : Bytes × Nat} (h : asfContents file o = .ok x) : x.1.length ≤ file.length := by
  unfold asfContents at h
  dsimp only at h
  repeat' split at h
  all_goals
    simp only [Except.ok.injEq, reduceCtorEq] at h
  all_goals
    subst h
    first
    | exact readAt_le _ _ _
    | (simp only [List.length_drop]; omega)

theorem wmvLoadLoop_keeps {file : Bytes} : ∀ (fuel pos : Nat) (s r : WmvLoaded), (s.file.isSome = true → 18 ≤ file.length) →
    wmvLoadLoop file fuel pos s = .ok r → r.file.isSome = true → 18 ≤ file.length := by
  intro fuel
  induction fuel with
  | zero => intro pos s r _ h; simp [wmvLoadLoop] at h
  | succ fuel ih =>
    intro pos s r hs h
    unfold wmvLoadLoop at h
    simp only [bind_eq_ok] at h
    obtain ⟨o, _, h⟩ := h
    cases o with
    | none => simp only [pure_eq_ok, Except.ok.injEq] at h; subst h; exact hs
    | some o =>
      dsimp only at h
      split at h
      · simp only [bind_eq_ok] at h
        obtain ⟨⟨d, q⟩, hd, f, hf, h⟩ := h
        exact ih _ _ _ (fun _ => Nat.le_trans (fileParse_long hf) (asfContents_le hd)) h
      · split at h
        · simp only [bind_eq_ok] at h
          obtain ⟨⟨d, q⟩, hd, f, hf, h⟩ := h
          exact ih _ ⟨s.file, s.tracks.put f.number f⟩ _ hs h
        · split at h
          · simp only [bind_eq_ok] at h
            obtain ⟨⟨d, q⟩, hd, h⟩ := h
            cases hf : s.file with
            | none => rw [hf] at h; simp at h
            | some f =>
              rw [hf] at h
              exact ih _ _ _ (fun _ => hs (by rw [hf]; rfl)) h
          · simp only [bind_eq_ok] at h
            obtain ⟨q, _, h⟩ := h
            exact ih _ _ _ hs h

theorem wmv_load_long {srs : Bytes} {x : FileData × Option Bytes × Tracks} (h : wmvLoadSrs srs = .ok x) : 18 ≤ srs.length := by
  unfold wmvLoadSrs at h
  simp only [bind_eq_ok] at h
  obtain ⟨s, h1, h⟩ := h
  have := wmvLoadLoop_keeps _ _ _ _ (by simp) h1
  cases hf : s.file with
  | none => rw [hf] at h; simp at h
  | some f => exact this (by rw [hf]; rfl)

theorem flac_srs_start {app name : Str} {size crc : Nat} {tracks : Tracks} {fp : Option (Nat × Bytes)} {big : Bool} {sample srs : Bytes}
    (hs : mFLaC <+: sample) (h : flacCreateSrs app name size crc tracks fp big sample = .ok srs) :
    ∃ ins rest, flacInsert app name size crc tracks fp big = .ok ins ∧ srs = mFLaC ++ (ins ++ rest) := by
  obtain ⟨u, rfl⟩ := hs
  unfold flacCreateSrs flacAll flacLoop at h
  have h0 : flacRead (mFLaC ++ u) 0 = .ok (some ⟨.magic, 0, mFLaC, 0⟩) := by
    unfold flacRead
    rw [if_neg (by simp [mFLaC])]
    dsimp only
    rw [if_pos (by simp [readAt, mFLaC])]
  rw [h0, ok_bind] at h
  simp only [bind_eq_ok] at h
  obtain ⟨⟨s', n⟩, h1, h⟩ := h
  unfold flacCreateBlock at h1
  simp only [if_true, bind_eq_ok, pure_eq_ok, Except.ok.injEq] at h1
  obtain ⟨o, ⟨i, hi, rfl⟩, h1⟩ := h1
  rw [if_neg (by simp [FlacBlock.isFrame])] at h1
  simp only [pure_eq_ok, Except.ok.injEq, Prod.mk.injEq] at h1
  obtain ⟨rfl, rfl⟩ := h1
  rw [if_neg (by simp)] at h
  obtain ⟨v, hv⟩ := flacLoop_prefix (fun s b r h => (List.prefix_append _ _).trans (flacCreateBlock_prefix h).1) _ _ _ _ h
  refine ⟨i, flacContents (mFLaC ++ u) ⟨.magic, 0, mFLaC, 0⟩ ++ v, hi, ?_⟩
  rw [← hv]
  simp only [List.nil_append, List.append_assoc]

/-- With an ID3v2 tag in front. -/
theorem flac_srs_tag {app name : Str} {size crc n : Nat} {tracks : Tracks} {fp : Option (Nat × Bytes)} {big : Bool} {sample srs : Bytes}
    (hs : mID3 <+: sample) (hn : decodeId3Size (slice sample 6 10) = .ok n) (hf : readAt sample (10 + n) 4 = mFLaC)
    (h : flacCreateSrs app name size crc tracks fp big sample = .ok srs) :
    ∃ ins rest, flacInsert app name size crc tracks fp big = .ok ins ∧ srs = sample.take (10 + n) ++ (mFLaC ++ (ins ++ rest)) := by
  have hlen : 10 + n + 4 ≤ sample.length := by
    have := congrArg List.length hf
    rw [readAt_length] at this
    simp only [mFLaC, List.length_cons, List.length_nil] at this
    omega
  unfold flacCreateSrs flacAll at h
  rw [show sample.length + 1 = (sample.length - 1 + 1) + 1 by omega] at h
  unfold flacLoop at h
  have h4 : ¬ readAt sample 0 4 = mFLaC := by
    obtain ⟨u, rfl⟩ := hs
    simp [readAt, mID3, mFLaC]
  have h3 : mID3.isPrefixOf (readAt sample 0 4) = true := by
    obtain ⟨u, rfl⟩ := hs
    simp [readAt, mID3, List.isPrefixOf]
  have h0 : flacRead sample 0 = .ok (some ⟨.id3, n, sample.take 10, 0⟩) := by
    unfold flacRead
    rw [if_neg (by omega)]
    dsimp only
    rw [if_neg h4, if_pos h3]
    have : slice (readAt sample 0 10) 6 10 = slice sample 6 10 := by
      simp [slice, readAt, List.take_take]
    rw [this, hn, ok_bind]
    rfl
  rw [h0, ok_bind] at h
  have ht10 : (sample.take 10).length = 10 := by rw [List.length_take]; omega
  have hcont : flacContents sample ⟨.id3, n, sample.take 10, 0⟩ = (sample.drop 10).take n := by
    unfold flacContents readAt
    rw [ht10, Nat.zero_add]
  have hcl : ((sample.drop 10).take n).length = n := by rw [List.length_take, List.length_drop]; omega
  simp only [bind_eq_ok] at h
  obtain ⟨r, h1, h⟩ := h
  have := (flacCreateBlock_prefix h1).2 (by simp) (by simp [FlacBlock.isFrame])
  subst this
  dsimp only at h
  rw [if_neg (by simp)] at h
  rw [show flacPos sample ⟨.id3, n, sample.take 10, 0⟩ .read = 10 + n by
    simp only [flacPos, hcont, hcl, ht10, Nat.zero_add]] at h
  unfold flacLoop at h
  have h5 : flacRead sample (10 + n) = .ok (some ⟨.magic, 0, mFLaC, 10 + n⟩) := by
    unfold flacRead
    rw [if_neg (by omega)]
    dsimp only
    rw [if_pos hf]
  rw [h5, ok_bind] at h
  simp only [bind_eq_ok] at h
  obtain ⟨⟨s', m⟩, h1, h⟩ := h
  unfold flacCreateBlock at h1
  simp only [if_true, bind_eq_ok, pure_eq_ok, Except.ok.injEq] at h1
  obtain ⟨o, ⟨i, hi, rfl⟩, h1⟩ := h1
  rw [if_neg (by simp [FlacBlock.isFrame])] at h1
  simp only [pure_eq_ok, Except.ok.injEq, Prod.mk.injEq] at h1
  obtain ⟨rfl, rfl⟩ := h1
  rw [if_neg (by simp)] at h
  obtain ⟨v, hv⟩ := flacLoop_prefix (fun s b r h => (List.prefix_append _ _).trans (flacCreateBlock_prefix h).1) _ _ _ _ h
  refine ⟨i, flacContents sample ⟨.magic, 0, mFLaC, 10 + n⟩ ++ v, hi, ?_⟩
  rw [← hv, hcont]
  simp only [List.nil_append, List.append_assoc]
  rw [← List.append_assoc (sample.take 10), ← List.take_add]

/-- A short list is in front of a list exactly if it is in front of a long enough part of it. -/
theorem prefix_first {q a b : Bytes} (h : q.length ≤ a.length) : q <+: a ++ b ↔ q <+: a := by
  constructor
  · intro hp
    exact List.prefix_of_prefix_length_le hp (List.prefix_append a b) h
  · intro hp
    exact hp.trans (List.prefix_append a b)

theorem fileSerialize_long {app name : Str} {flags size crc : Nat} {f : Bytes} (h : fileSerialize app flags name size crc = .ok f) :
    18 ≤ f.length := by
  unfold fileSerialize at h
  simp only [bind_eq_ok, pack_eq_ok, pure_eq_ok, Except.ok.injEq] at h
  obtain ⟨a, _, n, _, _, ⟨_, rfl⟩, _, ⟨h1, rfl⟩, _, ⟨h2, rfl⟩, _, ⟨_, rfl⟩, _, ⟨_, rfl⟩, rfl⟩ := h
  simp; omega

theorem flacInsert_long {app name : Str} {size crc : Nat} {tracks : Tracks} {fp : Option (Nat × Bytes)} {big : Bool} {ins : Bytes}
    (h : flacInsert app name size crc tracks fp big = .ok ins) : 18 ≤ ins.length ∧ ∃ r, ins = 0x73 :: r := by
  unfold flacInsert flacSrsBlock at h
  simp only [bind_eq_ok, pure_eq_ok, Except.ok.injEq] at h
  obtain ⟨f, hf, fb, ⟨n, hn, rfl⟩, tb, _, rfl⟩ := h
  have := fileSerialize_long hf
  refine ⟨?_, _, rfl⟩
  simp only [List.length_append, List.length_cons]
  omega

end Rescene
