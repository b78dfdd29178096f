import Verif.Model.MkvRetry
import Verif.Spec.MkvRetry
import Verif.Lemmas.MkvFind
/-
The search with further offsets, and the files of several attempts.
-/
namespace Rescene
open Spec

/-! ### Two loops that do the same -/

theorem mkvLoop_sim {σ τ : Type} {mode : EbmlMode} {again : Bool} {how : σ → EbmlElem → EbmlHow} {how' : τ → EbmlElem → EbmlHow}
    {file : Bytes} {f : σ → EbmlElem → Bytes → Res (σ × Bool)} {g : τ → EbmlElem → Bytes → Res (τ × Bool)} (φ : σ → τ)
    (hh : ∀ s e, how' (φ s) e = how s e) (hf : ∀ s e d, g (φ s) e d = (f s e d).map fun x => (φ x.1, x.2)) :
    ∀ (fuel pos : Nat) (s : σ) (done : Bool), mkvLoop mode again how' file g fuel pos (φ s) done =
      (mkvLoop mode again how file f fuel pos s done).map φ
  | 0, _, _, _ => rfl
  | fuel + 1, pos, s, done => by
    rw [mkvLoop, mkvLoop]
    cases h1 : ebmlRead mode file pos with
    | error e => rfl
    | ok o =>
      rw [ok_bind, ok_bind]
      cases o with
      | none => rfl
      | some e =>
        dsimp only
        cases done with
        | true => rfl
        | false =>
          rw [if_neg (by simp), if_neg (by simp), hh]
          cases h2 : ebmlContents mode (how s e) file e with
          | error e => rfl
          | ok y =>
            obtain ⟨d, q⟩ := y
            rw [ok_bind, ok_bind]
            dsimp only
            rw [hf]
            cases h3 : f s e d with
            | error e => rfl
            | ok z =>
              obtain ⟨s', done'⟩ := z
              simp only [Except.map, ok_bind]
              split
              · rfl
              · exact mkvLoop_sim φ hh hf fuel q s' done'

/-! ### The files -/

/-- A file that was only written. -/
def written (d : Bytes) : LiveFile := ⟨d, d.length⟩

theorem write_written (d b : Bytes) : (written d).write b = written (d ++ b) := by
  simp [LiveFile.write, written]

theorem writeOn_written (t : MkvTrack) (base : Int) (ss sm buff : Bytes) : ∀ (fr : List Int) (out : Bytes) (offset : Int),
    mkvWriteOn t base ss sm buff (written out) offset fr = written (mkvWriteFrames t base ss sm buff out offset fr)
  | [], _, _ => rfl
  | f :: fr, out, offset => by
    rw [mkvWriteOn, mkvWriteFrames]
    show mkvWriteOn t base ss sm buff (if base + offset ≥ t.offset ∧ ((written out).pos : Int) < t.len then _ else _) _ _ = _
    rw [show ((written out).pos : Int) = (out.length : Int) from rfl]
    by_cases h : base + offset ≥ t.offset ∧ (out.length : Int) < t.len
    · rw [if_pos h, if_pos h, write_written, writeOn_written]
    · rw [if_neg h, if_neg h, writeOn_written]

def liveOf (f : TrackFiles) : LiveFiles := fun n => (f n).map written

theorem liveOf_set (f : TrackFiles) (n : Nat) (d : Bytes) : liveOf (f.set n d) = (liveOf f).set n (some (written d)) := by
  funext k
  simp only [liveOf, TrackFiles.set, LiveFiles.set]
  split <;> rfl

def liveState (s : MkvExtract) : MkvLive := ⟨{ s with files := fun _ => none }, liveOf s.files⟩

theorem liveItem_eq (tracks : MkvTracks) (s : MkvExtract) (e : EbmlElem) (d : Bytes) :
    mkvLiveItem tracks (liveState s) e d = (mkvExtractItem tracks s e d).map fun x => (liveState x.1, x.2) := by
  unfold mkvLiveItem
  cases hb : e.block with
  | some b =>
    simp only [mkvExtractItem, hb]
    unfold mkvLiveBlock mkvBlockExtract
    cases movGet tracks b.track with
    | none => rfl
    | some t =>
      dsimp only [liveState]
      cases hm : movGet s.mains b.track with
      | none => rfl
      | some ss =>
        dsimp only
        by_cases hw : mkvWanted t e b = true
        · have hg : (liveOf s.files b.track).getD {} = written ((s.files b.track).getD []) := by
            unfold liveOf
            cases s.files b.track <;> rfl
          rw [if_pos hw, if_pos hw, hg, writeOn_written, ← liveOf_set]
          simp only [Except.map]
          congr 3
          funext x
          unfold liveOf
          cases h : (TrackFiles.set s.files b.track _) x.1 with
          | none => simp
          | some y => simp [written]
        · rw [if_neg hw, if_neg hw]; rfl
  | none =>
    dsimp only
    simp only [mkvExtractItem, hb, liveState]
    split
    · rfl
    · split
      · cases s.att with
        | none => rfl
        | some n =>
          dsimp only
          cases attachGet s.atts n with
          | none => rfl
          | some o => cases o <;> rfl
      · cases mkvMainItem s.mains s.cur s.strip e.id d with
        | error => rfl
        | ok x => obtain ⟨a, b, c⟩ := x; rfl

/-- Without files, the streams are extracted as for the first attempt. -/
theorem extractOn_none (tracks : MkvTracks) (main : Bytes) :
    mkvExtractOn tracks (fun _ => none) main = (mkvExtract tracks main).map fun x => (liveOf x.1, x.2) := by
  unfold mkvExtractOn mkvExtract mkvWalk
  have := mkvLoop_sim (mode := .mkv) (again := true) (file := main) (how := mkvExtractHow tracks (mkvStart tracks))
    (how' := fun l e => mkvExtractHow tracks (mkvStart tracks) l.s e) (f := mkvExtractItem tracks) (g := mkvLiveItem tracks) liveState
    (fun s e => by
      unfold mkvExtractHow liveState
      rfl) (liveItem_eq tracks) (main.length + 1) 0 {} false
  rw [show ({ files := fun _ => none } : MkvLive) = liveState {} from rfl, this]
  cases mkvLoop .mkv true (mkvExtractHow tracks (mkvStart tracks)) main (mkvExtractItem tracks) (main.length + 1) 0 {} false with
  | error => rfl
  | ok s => rfl

theorem rebuildOn_live (srs : Bytes) (flags : Nat) (tracks : MkvTracks) (files : TrackFiles) (atts : MkvAttach) :
    (mkvRebuildOn srs flags tracks (liveOf files) atts).map (fun x => (x.1, x.2.1)) = mkvRebuild srs flags tracks files atts := by
  have : (fun n => ((liveOf files) n).map (·.data)) = files := by
    funext n
    unfold liveOf
    cases files n <;> rfl
  unfold mkvRebuildOn mkvRebuild
  rw [this]
  cases mkvWalk .srs true (mkvRebuildHow flags) srs (mkvRebuildItem tracks) { files := files, atts := atts } with
  | error => rfl
  | ok s => rfl

/-- The CRC that is compared is that of what was written. -/
theorem rebuildOn_rebuild {srs : Bytes} {flags : Nat} {tracks : MkvTracks} {files files' : LiveFiles} {atts : MkvAttach} {out : Bytes}
    {crc : BitVec 32} (h : mkvRebuildOn srs flags tracks files atts = .ok (out, crc, files')) :
    mkvRebuild srs flags tracks (fun n => (files n).map (·.data)) atts = .ok (out, crc) := by
  unfold mkvRebuildOn at h
  unfold mkvRebuild
  simp only [bind_eq_ok, pure_eq_ok, Except.ok.injEq, Prod.mk.injEq] at h ⊢
  obtain ⟨s, hs, h1, h2, _⟩ := h
  exact ⟨s, hs, h1, h2⟩

/-! ### The search -/

theorem seekItem_none (s : MkvFind) (e : EbmlElem) (d : Bytes) :
    mkvSeekItem ⟨s, []⟩ e d = (mkvFindItem s e d).map fun x => (⟨x.1, []⟩, x.2) := by
  unfold mkvSeekItem
  cases hb : e.block with
  | some b =>
    simp only [mkvFindItem, hb, Except.map, mkvSeekBlock]
    split <;> rfl
  | none =>
    dsimp only
    cases mkvFindItem s e d with
    | error => rfl
    | ok x => rfl

/-- Without short signatures, the search is that for the first attempt. -/
theorem mkvSeek_none (tracks : MkvTracks) (main : Bytes) : mkvSeek tracks [] main = (mkvFind tracks main).map fun t => (t, []) := by
  unfold mkvSeek mkvFind mkvWalk
  have := mkvLoop_sim (mode := .mkv) (again := true) (file := main) (how := mkvFindHow) (how' := mkvSeekHow) (f := mkvFindItem)
    (g := mkvSeekItem) (fun s : MkvFind => (⟨s, []⟩ : MkvSeek)) (fun s e => by
      unfold mkvSeekHow
      cases e.block <;> rfl) seekItem_none (main.length + 1) 0 { tracks := tracks } false
  rw [this]
  cases mkvLoop .mkv true mkvFindHow main mkvFindItem (main.length + 1) 0 { tracks := tracks } false <;> rfl

/-- Data of blocks that are not searched is not looked at. -/
theorem blockFind_unread {s : MkvFind} {e : EbmlElem} {b : EbmlBlock} (h : (mkvTrackOf s.tracks b.track).search = false) (d d' : Bytes) :
    mkvBlockFind s e b d = mkvBlockFind s e b d' := by
  unfold mkvBlockFind
  simp only [h]
  rfl

theorem seekFold_sim : ∀ (l : List MkvItem) (pos : Nat) (s : MkvSeek),
    (mkvFold mkvSeekHow mkvSeekItem l pos s).map (·.s) = mkvFold mkvFindHow mkvFindItem l pos s.s
  | [], _, _ => rfl
  | x :: l, pos, s => by
    rw [mkvFold, mkvFold]
    cases hb : (x.1.elem pos).block with
    | none =>
      have hh : mkvSeekHow s (x.1.elem pos) = mkvFindHow s.s (x.1.elem pos) := by
        unfold mkvSeekHow; rw [hb]
      rw [hh]
      unfold mkvSeekItem
      simp only [hb]
      cases mkvFindItem s.s (x.1.elem pos) (ebmlSeen (mkvFindHow s.s (x.1.elem pos)) x.1) with
      | error => rfl
      | ok y =>
        obtain ⟨s', d⟩ := y
        simp only [ok_bind, pure_eq_ok]
        cases d with
        | true => rfl
        | false => exact seekFold_sim l _ ⟨s', s.cut⟩
    | some b =>
      have hi : mkvSeekItem s (x.1.elem pos) (ebmlSeen (mkvSeekHow s (x.1.elem pos)) x.1) =
          .ok (mkvSeekBlock s (x.1.elem pos) b (ebmlSeen (mkvSeekHow s (x.1.elem pos)) x.1)) := by
        unfold mkvSeekItem; simp only [hb]
      have hf : mkvFindItem s.s (x.1.elem pos) (ebmlSeen (mkvFindHow s.s (x.1.elem pos)) x.1) =
          .ok (mkvBlockFind s.s (x.1.elem pos) b (ebmlSeen (mkvSeekHow s (x.1.elem pos)) x.1)) := by
        unfold mkvFindItem; simp only [hb]
        cases hs : (mkvTrackOf s.s.tracks b.track).search with
        | false => rw [blockFind_unread hs]
        | true =>
          have h1 : mkvFindHow s.s (x.1.elem pos) = .read := by unfold mkvFindHow; simp only [hb, hs]; rfl
          have h2 : mkvSeekHow s (x.1.elem pos) = .read := by
            unfold mkvSeekHow; simp only [hb, h1]; split <;> rfl
          rw [h1, h2]
      obtain ⟨c', hc⟩ : ∃ c', mkvSeekBlock s (x.1.elem pos) b (ebmlSeen (mkvSeekHow s (x.1.elem pos)) x.1) =
          (⟨(mkvBlockFind s.s (x.1.elem pos) b (ebmlSeen (mkvSeekHow s (x.1.elem pos)) x.1)).1, c'⟩,
            (mkvBlockFind s.s (x.1.elem pos) b (ebmlSeen (mkvSeekHow s (x.1.elem pos)) x.1)).2) := ⟨_, rfl⟩
      rw [hi, hf, hc, ok_bind, ok_bind]
      generalize mkvBlockFind s.s (x.1.elem pos) b (ebmlSeen (mkvSeekHow s (x.1.elem pos)) x.1) = r
      obtain ⟨r1, r2⟩ := r
      cases r2 with
      | true => rfl
      | false => exact seekFold_sim l _ ⟨r1, c'⟩

theorem seek_suits {p : MkvPart} (h : FindPart p) (s : MkvSeek) (pos : Nat) : EbmlSuits .mkv (mkvSeekHow s (p.elem pos)) (p, true) := by
  have h1 := find_suits h s.s pos
  unfold mkvSeekHow
  cases p with
  | enter => exact h1
  | leaf => exact h1
  | block b =>
    show EbmlSuits .mkv (if _ then _ else _) _
    split
    · exact ⟨rfl, by simp, by simp⟩
    · exact h1

theorem findParts_suit {σ : Type} {how : σ → EbmlElem → EbmlHow} {tops : List MkvTop} {mh : Nat → Bytes} (hm : MovieTops tops mh)
    (hs : ∀ p, FindPart p → ∀ s pos, EbmlSuits .mkv (how s (p.elem pos)) (p, true)) :
    SuitsAt .mkv how (mkvView findWhole 0 tops) 0 := by
  apply mkvView_suits
  intro t ht pos
  apply suitsAt_all
  intro y hy s pos'
  obtain ⟨p, hp, rfl⟩ := List.mem_map.1 hy
  cases hw : findWhole 0 t with
  | false =>
    rw [show findWhole pos t = false from hw, if_neg (by simp)] at hp
    exact hs p (findPart_top (hm.kind t ht) hw (hm.ok t ht).2 p hp) s pos'
  | true =>
    rw [show findWhole pos t = true from hw, if_pos rfl] at hp
    rw [List.mem_singleton.1 hp]
    obtain ⟨size, inner, rfl, _⟩ := find_whole (hm.kind t ht) hw
    exact hs (.leaf attachmentsId size (mkvBytes inner)) ⟨by decide, fun h => absurd h (by decide)⟩ s pos'

theorem walk_view {σ : Type} {how : σ → EbmlElem → EbmlHow} {f : σ → EbmlElem → Bytes → Res (σ × Bool)} {tops : List MkvTop} {mh : Nat → Bytes}
    (hm : MovieTops tops mh) (hs : ∀ p, FindPart p → ∀ s pos, EbmlSuits .mkv (how s (p.elem pos)) (p, true)) (s : σ) :
    mkvWalk .mkv true how (mkvFile tops) f s = mkvFold how f (mkvView findWhole 0 tops) 0 s := by
  rw [← mkvWalk_at _ (mkvView_ok hm.ok) (findParts_suit hm hs) (by simp), mkvView_bytes]
  rfl

/-- In a well-formed movie, the search that collects further offsets finds the same. -/
theorem mkvSeek_find {tops : List MkvTop} {mh : Nat → Bytes} (hm : MovieTops tops mh) (ts : MkvTracks) (cut : CutData) :
    (mkvSeek ts cut (mkvFile tops)).map (·.1) = mkvFind ts (mkvFile tops) := by
  unfold mkvSeek mkvFind
  rw [walk_view hm (fun p h s pos => seek_suits h s pos), walk_view hm (fun p h s pos => find_suits h s pos)]
  have := seekFold_sim (mkvView findWhole 0 tops) 0 ⟨{ tracks := ts }, cut⟩
  dsimp only at this
  rw [← this]
  cases mkvFold mkvSeekHow mkvSeekItem (mkvView findWhole 0 tops) 0 ⟨{ tracks := ts }, cut⟩ <;> rfl

/-! ### The further offsets -/

theorem extraOffsets_like {sig mh sh : Bytes} {base : Int} : ∀ (fs : List Bytes) (a : Bytes),
    (∀ f ∈ fs, mh = sh ∨ sh = [] ∨ (mh = [] ∧ sh <+: f)) →
    ∀ o ∈ extraOffsets base (ssOf mh sh) (smOf mh sh) (a ++ fs.flatten) sig a.length (fs.map fun f => (f.length : Int)),
      ∃ p f q, fs = p ++ f :: q ∧ o = base + a.length + p.flatten.length ∧ LooksLike sig mh sh f
  | [], _, _, o, ho => by simp [extraOffsets] at ho
  | f :: fs, a, hs, o, ho => by
    rw [List.map_cons, extraOffsets] at ho
    rcases List.mem_append.1 ho with ho | ho
    · split at ho
      · rename_i hp
        rw [List.mem_singleton] at ho
        refine ⟨[], f, fs, rfl, by simp [ho], ?_⟩
        obtain ⟨h1, h2, h3, h4⟩ := recut_eq (hs f (by simp))
        have hp' := (prefix_isPrefixOf _ _).1 hp
        have hl := hp'.length_le
        rw [List.length_append] at hl
        have hfl : ((f.length : Int) + (ssOf mh sh).length - (smOf mh sh).length) = ((recut mh sh f).length : Int) := by omega
        have hk : min (sig.length : Int) ((f.length : Int) + (ssOf mh sh).length - (smOf mh sh).length) =
            ((min sig.length (recut mh sh f).length : Nat) : Int) := by omega
        rw [hk, List.flatten_cons, find_piece (hs f (by simp)) a fs.flatten _ (by omega) (by omega)] at hp'
        rw [LooksLike, show (mh ++ f).drop sh.length = recut mh sh f from rfl]
        by_cases hc : sig.length ≤ (recut mh sh f).length
        · rwa [Nat.min_eq_left hc] at hp'
        · rw [Nat.min_eq_right (by omega), List.take_length] at hp'
          rwa [List.take_of_length_le (by omega)]
      · simp at ho
    · have := extraOffsets_like fs (a ++ f) (fun g hg => hs g (by simp [hg])) o (by
        rw [List.flatten_cons, ← List.append_assoc] at ho
        rw [List.length_append, Int.natCast_add]
        exact ho)
      obtain ⟨p, g, q, e, h, hl⟩ := this
      refine ⟨f :: p, g, q, by rw [e]; rfl, ?_, hl⟩
      rw [h, List.length_append, List.flatten_cons, List.length_append]
      omega

theorem findFrame_keeps (base : Int) (ss sm buff : Bytes) (t : MkvTrack) (o f : Int) :
    (mkvFindFrame base ss sm buff t o f).sig = t.sig ∧ (mkvFindFrame base ss sm buff t o f).settings = t.settings := by
  unfold mkvFindFrame
  dsimp only
  repeat' split
  all_goals exact ⟨rfl, rfl⟩

theorem findFrames_keeps (base : Int) (ss sm buff : Bytes) : ∀ (fr : List Int) (t : MkvTrack) (o : Int),
    (mkvFindFrames base ss sm buff t o fr).sig = t.sig ∧ (mkvFindFrames base ss sm buff t o fr).settings = t.settings
  | [], _, _ => ⟨rfl, rfl⟩
  | f :: fr, t, o => by
    rw [mkvFindFrames]
    have h1 := findFrames_keeps base ss sm buff fr (mkvFindFrame base ss sm buff t o f) (o + f)
    have h2 := findFrame_keeps base ss sm buff t o f
    exact ⟨h1.1.trans h2.1, h1.2.trans h2.2⟩

theorem blockFind_keeps {s : MkvFind} {e : EbmlElem} {b : EbmlBlock} {buff m : Bytes} (hm : movGet s.mains b.track = some m) :
    ∃ t', (mkvBlockFind s e b buff).1 = { s with tracks := dictPut s.tracks b.track t' } ∧ t'.sig = (mkvTrackOf s.tracks b.track).sig ∧
      t'.settings = (mkvTrackOf s.tracks b.track).settings := by
  cases hs : (mkvTrackOf s.tracks b.track).search with
  | true =>
    rw [blockFind_search rfl hm hs]
    exact ⟨_, rfl, findFrames_keeps _ _ _ _ _ _ _⟩
  | false =>
    by_cases hl : (mkvTrackOf s.tracks b.track).matchLen < (mkvTrackOf s.tracks b.track).len
    · rw [blockFind_more rfl hm hs hl]
      exact ⟨_, rfl, rfl, rfl⟩
    · rw [blockFind_none rfl hm hs hl]
      exact ⟨_, rfl, rfl, rfl⟩

/-- A frame of a track among the parts of a file: the file goes on with it at `o`. -/
def FrameAt (parts : List MkvPart) (n : Nat) (o : Int) (f : Bytes) : Prop :=
  ∃ front b back p q, parts = front ++ .block b :: back ∧ b.track = n ∧ b.frames = p ++ f :: q ∧
    o = (((mkvBytes front).length + (MkvPart.block b).head.length + p.flatten.length : Nat) : Int)

theorem frameAt_more {parts : List MkvPart} {n : Nat} {o : Int} {f : Bytes} (h : FrameAt parts n o f) (more : List MkvPart) :
    FrameAt (parts ++ more) n o f := by
  obtain ⟨front, b, back, p, q, rfl, h⟩ := h
  exact ⟨front, b, back ++ more, p, q, by simp, h⟩

/-- What is known of the further offsets after some parts. -/
structure SeekInv (ts : MkvTracks) (mh : Nat → Bytes) (done : List MkvPart) (s : MkvSeek) : Prop where
  main : MainInv done s.s.mains s.s.cur s.s.strip
  old : ∀ n t0, movGet ts n = some t0 → ∃ t, movGet s.s.tracks n = some t ∧ t.sig = t0.sig ∧ t.settings = t0.settings
  known : ∀ n t0 l, movGet ts n = some t0 → movGet s.cut n = some l → ∀ o ∈ l, ∃ f, FrameAt done n o f ∧ LooksLike t0.sig (mh n) t0.settings f

theorem seekInv_same {ts : MkvTracks} {mh : Nat → Bytes} {done ps : List MkvPart} {s s' : MkvSeek} (h : SeekInv ts mh done s)
    (hm : MainInv (done ++ ps) s'.s.mains s'.s.cur s'.s.strip) (ht : s'.s.tracks = s.s.tracks) (hc : s'.cut = s.cut) :
    SeekInv ts mh (done ++ ps) s' := by
  refine ⟨hm, by rw [ht]; exact h.old, ?_⟩
  intro n t0 l h0 hl o ho
  rw [hc] at hl
  obtain ⟨f, hf, hk⟩ := h.known n t0 l h0 hl o ho
  exact ⟨f, frameAt_more hf ps, hk⟩

theorem seek_block {ts : MkvTracks} {mh : Nat → Bytes} {done : List MkvPart} {b : MkvBlock}
    (hstrip : ∀ t0, movGet ts b.track = some t0 → ∀ f ∈ b.frames, mh b.track = t0.settings ∨ t0.settings = [] ∨ (mh b.track = [] ∧ t0.settings <+: f))
    {s : MkvSeek} (hi : SeekInv ts mh done s) (hmain : movGet s.s.mains b.track = some (mh b.track)) :
    ∃ s' d, mkvSeekItem s (MkvPart.elem (mkvBytes done).length (.block b)) (ebmlSeen (mkvSeekHow s (MkvPart.elem (mkvBytes done).length (.block b))) (.block b)) =
      .ok (s', d) ∧ SeekInv ts mh (done ++ [.block b]) s' := by
  have hmain' : MainInv (done ++ [.block b]) s.s.mains s.s.cur s.s.strip := mainInv_same hi.main (by
    intro p hp
    rw [List.mem_singleton.1 hp]
    exact ⟨fun _ => rfl, by simp⟩)
  have hitem : ∀ d, mkvSeekItem s (MkvPart.elem (mkvBytes done).length (.block b)) d =
      .ok (mkvSeekBlock s (MkvPart.elem (mkvBytes done).length (.block b)) ⟨b.track, b.frames.map fun f => (f.length : Int), b.head⟩ d) := fun _ => rfl
  rw [hitem]
  generalize hd : ebmlSeen (mkvSeekHow s (MkvPart.elem (mkvBytes done).length (.block b))) (.block b) = d
  obtain ⟨t', h1, h2, h3⟩ := blockFind_keeps (s := s.s) (e := MkvPart.elem (mkvBytes done).length (.block b))
    (b := ⟨b.track, b.frames.map fun f => (f.length : Int), b.head⟩) (buff := d) hmain
  dsimp only at h1 h2 h3
  refine ⟨_, _, rfl, ?_⟩
  dsimp only
  rw [h1]
  refine ⟨hmain', ?_, ?_⟩
  · intro n t0 h0
    obtain ⟨t, ht, hs, hst⟩ := hi.old n t0 h0
    dsimp only
    rw [movGet_dictPut]
    by_cases hn : n = b.track
    · subst hn
      rw [if_pos rfl]
      refine ⟨t', rfl, ?_, ?_⟩
      · rw [h2, mkvTrackOf, ht]; exact hs
      · rw [h3, mkvTrackOf, ht]; exact hst
    · rw [if_neg hn]
      exact ⟨t, ht, hs, hst⟩
  · intro n t0 l h0 hl o ho
    have old : ∀ l, movGet s.cut n = some l → o ∈ l → ∃ f, FrameAt (done ++ [.block b]) n o f ∧ LooksLike t0.sig (mh n) t0.settings f := by
      intro l hl ho
      obtain ⟨f, hf, hk⟩ := hi.known n t0 l h0 hl o ho
      exact ⟨f, frameAt_more hf _, hk⟩
    split at hl
    · exact old l hl ho
    · cases hcut : movGet s.cut b.track with
      | none =>
        rw [hcut] at hl
        exact old l hl ho
      | some l0 =>
        rw [hcut] at hl
        dsimp only at hl
        rw [movGet_dictPut] at hl
        split at hl
        · rename_i hn
          subst hn
          injection hl with hl
          rw [← hl] at ho
          rcases List.mem_append.1 ho with ho | ho
          · exact old l0 hcut ho
          · obtain ⟨t, ht, hs, hst⟩ := hi.old _ t0 h0
            have hdata : d = b.frames.flatten := by
              rw [← hd]
              have : mkvSeekHow s (MkvPart.elem (mkvBytes done).length (.block b)) = .read := by
                show (if (movGet s.cut b.track).isSome = true then EbmlHow.read else _) = _
                rw [hcut]; rfl
              rw [this]; rfl
            rw [hmain, mkvTrackOf, ht, Option.getD_some, Option.getD_some, hs, hst, hdata] at ho
            have e1 : (if decide (t0.settings ≠ mh b.track) = true then mh b.track else []) = ssOf (mh b.track) t0.settings := by
              unfold ssOf; simp only [decide_eq_true_eq]
            have e2 : (if decide (t0.settings ≠ mh b.track) = true then t0.settings else []) = smOf (mh b.track) t0.settings := by
              unfold smOf; simp only [decide_eq_true_eq]
            rw [e1, e2] at ho
            obtain ⟨p, f, q, e, h, hk⟩ := extraOffsets_like b.frames [] (hstrip t0 h0) o ho
            refine ⟨f, ⟨done, b, [], p, q, rfl, rfl, e, ?_⟩, hk⟩
            rw [h]
            simp [MkvPart.elem, MkvPart.head]
            omega
        · exact old l hl ho

theorem seekItem_plain {s : MkvSeek} {e : EbmlElem} {d : Bytes} {f : MkvFind} {x : Bool} (hb : e.block = none) (h : mkvFindItem s.s e d = .ok (f, x)) :
    mkvSeekItem s e d = .ok (⟨f, s.cut⟩, x) := by
  unfold mkvSeekItem
  simp only [hb, h]
  rfl

theorem seekHow_plain {s : MkvSeek} {e : EbmlElem} (hb : e.block = none) : mkvSeekHow s e = mkvFindHow s.s e := by
  unfold mkvSeekHow
  rw [hb]

theorem mkvSeek_part {ts : MkvTracks} {mh : Nat → Bytes} {done : List MkvPart} {p : MkvPart} (hp : FindPart p)
    (hnum : p.id ∈ [compressionId, codecId, compAlgoId, compSettingsId] → ∃ size data, .leaf trackNumberId size data ∈ done)
    (hblock : ∀ b, p = .block b → Described done b.track ∧ (done.foldl stripStep {}).settings b.track = mh b.track)
    (hstrip : ∀ b, p = .block b → ∀ t0, movGet ts b.track = some t0 → ∀ f ∈ b.frames,
      mh b.track = t0.settings ∨ t0.settings = [] ∨ (mh b.track = [] ∧ t0.settings <+: f))
    {s : MkvSeek} (hi : SeekInv ts mh done s) :
    ∃ s' d, mkvSeekItem s (p.elem (mkvBytes done).length) (ebmlSeen (mkvSeekHow s (p.elem (mkvBytes done).length)) p) =
      .ok (s', d) ∧ SeekInv ts mh (done ++ [p]) s' := by
  cases p with
  | enter id size =>
    have h1 : ∀ x ∈ findChildIds, x ∉ [trackNumberId, codecId, compAlgoId, compSettingsId] := by decide
    refine ⟨_, _, seekItem_plain rfl (findItem_other s.s rfl (show id ∉ _ from h1 _ hp) _), seekInv_same hi (mainInv_same hi.main ?_) rfl rfl⟩
    intro p hp
    rw [List.mem_singleton.1 hp]
    exact ⟨fun _ => rfl, by simp⟩
  | leaf id size data =>
    rw [seekHow_plain rfl, findHow_leaf, if_neg hp.1]
    by_cases hid : id ∈ [trackNumberId, codecId, compAlgoId, compSettingsId]
    · rw [if_pos hid, ebmlSeen, if_pos rfl]
      by_cases hco : id = codecId
      · subst hco
        have hn := hi.main.number (hnum (by simp [MkvPart.id]))
        refine ⟨_, _, seekItem_plain rfl (findItem_codec s.s (e := MkvPart.elem _ (.leaf codecId size data)) rfl rfl _ (by rw [hi.main.known _ hn]; rfl)),
          seekInv_same hi (mainInv_same hi.main ?_) rfl rfl⟩
        intro p hp
        rw [List.mem_singleton.1 hp]
        exact ⟨fun s => stripStep_other s (by decide), by intro sz d h; rw [MkvPart.leaf.injEq] at h; exact absurd h.1 (by decide)⟩
      · have hid' : id ∈ [trackNumberId, compAlgoId, compSettingsId] := by
          simp only [List.mem_cons, List.not_mem_nil, or_false] at hid ⊢
          rcases hid with h | h | h | h
          · exact Or.inl h
          · exact absurd h hco
          · exact Or.inr (Or.inl h)
          · exact Or.inr (Or.inr h)
        obtain ⟨mains', cur', strip', h1, h2⟩ := main_step (size := size) hi.main hid' hp.2 hnum
        exact ⟨_, _, seekItem_plain rfl (findItem_main s.s (e := MkvPart.elem _ (.leaf id size data)) rfl hco h1), seekInv_same hi h2 rfl rfl⟩
    · rw [if_neg hid]
      refine ⟨_, _, seekItem_plain rfl (findItem_other s.s rfl (show id ∉ _ from hid) _), seekInv_same hi (mainInv_same hi.main ?_) rfl rfl⟩
      intro p hp
      rw [List.mem_singleton.1 hp]
      simp only [List.mem_cons, List.not_mem_nil, or_false, not_or] at hid
      refine ⟨fun s => stripStep_other s (by simp [hid.1, hid.2.2.1, hid.2.2.2]), ?_⟩
      intro sz d h
      rw [MkvPart.leaf.injEq] at h
      exact hid.1 h.1
  | block b =>
    obtain ⟨h1, h2⟩ := hblock b rfl
    exact seek_block (hstrip b rfl) hi (by rw [hi.main.known _ h1, h2])

/-- The further offsets are those of frames that look like the signature. -/
theorem mkvSeek_like {tops : List MkvTop} {mh : Nat → Bytes} (hm : MovieTops tops mh) {ts : MkvTracks} {cut : CutData}
    (hstrip : ∀ b, .block b ∈ mkvFine tops → ∀ t0, movGet ts b.track = some t0 → ∀ f ∈ b.frames,
      mh b.track = t0.settings ∨ t0.settings = [] ∨ (mh b.track = [] ∧ t0.settings <+: f))
    (hcut : ∀ n l, movGet cut n = some l → l = []) :
    ∃ tr cut', mkvSeek ts cut (mkvFile tops) = .ok (tr, cut') ∧ ∀ n t0 l, movGet ts n = some t0 → movGet cut' n = some l → ∀ o ∈ l,
      ∃ f, FrameAt (mkvFine tops) n o f ∧ LooksLike t0.sig (mh n) t0.settings f := by
  have hinit : SeekInv ts mh [] ⟨{ tracks := ts }, cut⟩ := by
    refine ⟨mainInv_nil, fun n t0 h => ⟨t0, h, rfl, rfl⟩, ?_⟩
    intro n t0 l _ hl o ho
    rw [hcut n l hl] at ho
    simp at ho
  have hend : ∃ s, mkvFold mkvSeekHow mkvSeekItem (mkvView findWhole 0 tops ++ []) 0 ⟨{ tracks := ts }, cut⟩ = .ok s ∧
      ∃ done, done <+: mkvFine tops ∧ SeekInv ts mh done s := by
    have := mkvFold_view (how := mkvSeekHow) (f := mkvSeekItem) (I := fun done s => done <+: mkvFine tops → SeekInv ts mh done s)
      (E := fun s => ∃ done, done <+: mkvFine tops ∧ SeekInv ts mh done s) (whole := findWhole)
      (tops := tops) (done := []) (s := ⟨{ tracks := ts }, cut⟩) (more := []) ?_ ?_ (fun _ => hinit)
    · rcases this with ⟨s, e, hi⟩ | ⟨s, e, h⟩
      · exact ⟨s, e, _, List.prefix_rfl, hi List.prefix_rfl⟩
      · exact ⟨s, e, h⟩
    · intro ta t tb e hw a p b s ef hi
      rw [List.nil_append] at hi ⊢
      have hparts : mkvFine tops = (mkvFine ta ++ a) ++ p :: (b ++ mkvFine tb) := by
        rw [e, mkvFine_append, mkvFine_cons, ef]; simp
      have ht : t ∈ tops := by rw [e]; simp
      have hi := hi (by rw [hparts]; exact List.prefix_append _ _)
      obtain ⟨s', d, h1, h2⟩ := mkvSeek_part (findPart_top (hm.kind t ht) hw (hm.ok t ht).2 p (by rw [ef]; simp)) (hm.number _ _ _ hparts)
        (fun b' hb' => by subst hb'; exact hm.block _ _ _ hparts)
        (fun b' hb' => hstrip b' (by subst hb'; rw [hparts]; simp)) hi
      exact ⟨s', d, h1, fun _ => h2, fun _ => ⟨_, ⟨b ++ mkvFine tb, by rw [hparts]; simp⟩, h2⟩⟩
    · intro ta t tb s e hw hi
      rw [List.nil_append] at hi ⊢
      have ht : t ∈ tops := by rw [e]; simp
      have hparts : mkvFine tops = (mkvFine ta ++ t.fine) ++ mkvFine tb := by
        rw [e, mkvFine_append, mkvFine_cons]; simp
      have hi := hi (by rw [hparts, List.append_assoc]; exact List.prefix_append _ _)
      obtain ⟨size, inner, rfl, h1⟩ := find_whole (hm.kind t ht) hw
      have h2 : SeekInv ts mh (mkvFine ta ++ (MkvTop.master attachmentsId size inner).fine) ⟨s.s, s.cut⟩ :=
        seekInv_same hi (mainInv_same hi.main fun p hp => ⟨(h1 p hp).1, (h1 p hp).2.1⟩) rfl rfl
      refine ⟨_, _, seekItem_plain rfl (findItem_other s.s rfl (by show attachmentsId ∉ _; decide) _), fun _ => h2, fun h => absurd h (by simp)⟩
  rw [List.append_nil] at hend
  obtain ⟨s, hs, done, ⟨more, hmore⟩, hi⟩ := hend
  refine ⟨s.s.tracks, s.cut, ?_, ?_⟩
  · unfold mkvSeek
    rw [walk_view hm (fun p h s pos => seek_suits h s pos), hs]
    rfl
  · intro n t0 l h0 hl o ho
    obtain ⟨f, hf, hk⟩ := hi.known n t0 l h0 hl o ho
    exact ⟨f, by rw [← hmore]; exact frameAt_more hf more, hk⟩

/-! ### The attempts -/

/-- What the loops need to know: `off` is the offset that is set for a track. -/
structure Settable {σ ρ : Type} (set : Nat → Int → σ → Res σ) (attempt : σ → Res (σ × ρ × Bool)) (off : σ → Nat → Option Int) : Prop where
  same : ∀ s n o, off s n = some o → set n o s = .ok s
  now : ∀ s n o s', set n o s = .ok s' → off s' n = some o
  others : ∀ s n o s', set n o s = .ok s' → ∀ m, m ≠ n → off s' m = off s m
  kept : ∀ s s' r g, attempt s = .ok (s', r, g) → ∀ n, off s' n = off s n

/-- The offsets of a choice are set one after the other. -/
def setAll {σ : Type} (set : Nat → Int → σ → Res σ) : List (Nat × Int) → σ → Res σ
  | [], s => .ok s
  | x :: c, s => do
    let s ← set x.1 x.2 s
    setAll set c s

theorem setAll_others {σ ρ : Type} {set : Nat → Int → σ → Res σ} {attempt : σ → Res (σ × ρ × Bool)} {off : σ → Nat → Option Int}
    (h : Settable set attempt off) {n : Nat} : ∀ {c : List (Nat × Int)} {s s' : σ}, setAll set c s = .ok s' → (∀ x ∈ c, x.1 ≠ n) → off s' n = off s n
  | [], s, s', hs, _ => by
    simp only [setAll, Except.ok.injEq] at hs
    rw [hs]
  | x :: c, s, s', hs, hc => by
    simp only [setAll, bind_eq_ok] at hs
    obtain ⟨s1, h1, h2⟩ := hs
    rw [setAll_others h h2 (fun y hy => hc y (by simp [hy])), h.others _ _ _ _ h1 _ (fun e => hc x (by simp) e.symm)]

theorem setAll_now {σ ρ : Type} {set : Nat → Int → σ → Res σ} {attempt : σ → Res (σ × ρ × Bool)} {off : σ → Nat → Option Int}
    (h : Settable set attempt off) : ∀ {c : List (Nat × Int)} {s s' : σ}, c.Pairwise (fun a b => a.1 ≠ b.1) → setAll set c s = .ok s' →
      ∀ x ∈ c, off s' x.1 = some x.2
  | [], _, _, _, _, x, hx => by simp at hx
  | y :: c, s, s', hd, hs, x, hx => by
    simp only [setAll, bind_eq_ok] at hs
    obtain ⟨s1, h1, h2⟩ := hs
    obtain ⟨hd1, hd2⟩ := List.pairwise_cons.1 hd
    rcases List.mem_cons.1 hx with rfl | hx
    · rw [setAll_others h h2 (fun z hz => fun e => hd1 z hz e.symm)]
      exact h.now _ _ _ _ h1
    · exact setAll_now h hd2 h2 x hx

theorem tryChoices_append {σ ρ : Type} {choose : List (Nat × Int) → σ → Res σ} {attempt : σ → Res (σ × ρ × Bool)} :
    ∀ (a b : List (List (Nat × Int))) (s : σ) (last : Option ρ), tryChoices choose attempt (a ++ b) s last =
      (tryChoices choose attempt a s last) >>= fun x => if x.2.2 then .ok x else tryChoices choose attempt b x.1 x.2.1
  | [], b, s, last => by rw [List.nil_append, tryChoices, ok_bind]; rfl
  | c :: a, b, s, last => by
    rw [List.cons_append, tryChoices, tryChoices]
    cases choose c s with
    | error e => rfl
    | ok s1 =>
      dsimp only
      cases attempt s1 with
      | error e => rfl
      | ok y =>
        obtain ⟨s2, r, g⟩ := y
        cases g with
        | true => rfl
        | false => exact tryChoices_append a b s2 (some r)

theorem tryChoices_set {σ ρ : Type} {set : Nat → Int → σ → Res σ} {attempt : σ → Res (σ × ρ × Bool)} {off : σ → Nat → Option Int}
    (h : Settable set attempt off) {n : Nat} {o : Int} : ∀ {cs : List (List (Nat × Int))} {s : σ} {last : Option ρ}, off s n = some o →
      (∀ c ∈ cs, ∀ x ∈ c, x.1 ≠ n) →
      tryChoices (setAll set) attempt (cs.map ((n, o) :: ·)) s last = tryChoices (setAll set) attempt cs s last
  | [], _, _, _, _ => rfl
  | c :: cs, s, last, ho, hc => by
    rw [List.map_cons, tryChoices, tryChoices]
    have h1 : setAll set ((n, o) :: c) s = setAll set c s := by
      simp only [setAll, h.same _ _ _ ho, ok_bind]
    rw [h1]
    cases h2 : setAll set c s with
    | error e => rfl
    | ok s1 =>
      dsimp only
      cases h3 : attempt s1 with
      | error e => rfl
      | ok y =>
        obtain ⟨s2, r, g⟩ := y
        cases g with
        | true => rfl
        | false =>
          dsimp only
          apply tryChoices_set h
          · rw [h.kept _ _ _ _ h3, setAll_others h h2 (hc c (by simp)), ho]
          · exact fun c' hc' => hc c' (by simp [hc'])

theorem tryChoices_first {σ ρ : Type} {set : Nat → Int → σ → Res σ} {attempt : σ → Res (σ × ρ × Bool)} {off : σ → Nat → Option Int}
    (h : Settable set attempt off) {n : Nat} {o : Int} {cs : List (List (Nat × Int))} {s : σ} {last : Option ρ} (hne : cs ≠ [])
    (hc : ∀ c ∈ cs, ∀ x ∈ c, x.1 ≠ n) :
    tryChoices (setAll set) attempt (cs.map ((n, o) :: ·)) s last = (set n o s) >>= fun s => tryChoices (setAll set) attempt cs s last := by
  cases h1 : set n o s with
  | error e =>
    cases cs with
    | nil => exact absurd rfl hne
    | cons c cs =>
      rw [List.map_cons, tryChoices]
      simp only [setAll, h1, error_bind]
  | ok s1 =>
    rw [ok_bind]
    rw [← tryChoices_set (h := h) (h.now _ _ _ _ h1) hc]
    cases cs with
    | nil => exact absurd rfl hne
    | cons c cs =>
      rw [List.map_cons, tryChoices, tryChoices]
      simp only [setAll, h1, ok_bind, h.same _ _ _ (h.now _ _ _ _ h1)]

theorem choices_ne : ∀ {g : CutData}, (∀ x ∈ g, x.2 ≠ []) → choices g ≠ []
  | [], _ => by simp [choices]
  | (n, os) :: g, h => by
    have h1 := choices_ne (g := g) fun x hx => h x (by simp [hx])
    have h2 := h (n, os) (by simp)
    cases os with
    | nil => exact absurd rfl h2
    | cons o os =>
      intro e
      rw [choices, List.flatMap_cons, List.append_eq_nil_iff] at e
      have := e.1
      rw [List.map_eq_nil_iff] at this
      exact h1 this

theorem choices_names : ∀ {g : CutData} {c : List (Nat × Int)}, c ∈ choices g → c.map (·.1) = g.map (·.1)
  | [], c, h => by
    simp only [choices, List.mem_singleton] at h
    rw [h]; rfl
  | (n, os) :: g, c, h => by
    rw [choices, List.mem_flatMap] at h
    obtain ⟨o, _, h⟩ := h
    obtain ⟨c', hc', rfl⟩ := List.mem_map.1 h
    rw [List.map_cons, List.map_cons, choices_names hc']

/-- The nested loops go through all choices. -/
theorem checkTracks_eq {σ ρ : Type} {set : Nat → Int → σ → Res σ} {attempt : σ → Res (σ × ρ × Bool)} {off : σ → Nat → Option Int}
    (h : Settable set attempt off) : ∀ {g : CutData} {s : σ} {last : Option ρ}, g.Pairwise (fun a b => a.1 ≠ b.1) → (∀ x ∈ g, x.2 ≠ []) →
      checkTracks set attempt g s last = tryChoices (setAll set) attempt (choices g) s last
  | [], s, last, _, _ => by
    rw [checkTracks, choices, tryChoices]
    simp only [setAll]
    cases attempt s with
    | error e => rfl
    | ok y =>
      obtain ⟨s1, r, g⟩ := y
      cases g <;> rfl
  | (n, os) :: g, s, last, hd, hne => by
    obtain ⟨hd1, hd2⟩ := List.pairwise_cons.1 hd
    have ih : ∀ s last, checkTracks set attempt g s last = tryChoices (setAll set) attempt (choices g) s last :=
      fun s last => checkTracks_eq h hd2 fun x hx => hne x (by simp [hx])
    have hcs := choices_ne (g := g) fun x hx => hne x (by simp [hx])
    have hc : ∀ c ∈ choices g, ∀ x ∈ c, x.1 ≠ n := by
      intro c hc x hx e
      have : x.1 ∈ c.map (·.1) := List.mem_map.2 ⟨x, hx, rfl⟩
      rw [choices_names hc] at this
      obtain ⟨y, hy, e'⟩ := List.mem_map.1 this
      exact hd1 y hy (by rw [e', e])
    rw [checkTracks, choices]
    have loop : ∀ (os : List Int) (s : σ) (last : Option ρ), checkOffsets (set n) (checkTracks set attempt g) os s last =
        tryChoices (setAll set) attempt (os.flatMap fun o => (choices g).map ((n, o) :: ·)) s last := by
      intro os
      induction os with
      | nil => intro s last; rfl
      | cons o os ih2 =>
        intro s last
        rw [checkOffsets, List.flatMap_cons, tryChoices_append, tryChoices_first h hcs hc]
        cases set n o s with
        | error e => rfl
        | ok s1 =>
          rw [ok_bind, ok_bind, ih]
          cases tryChoices (setAll set) attempt (choices g) s1 last with
          | error e => rfl
          | ok y =>
            obtain ⟨s2, l, good⟩ := y
            rw [ok_bind, ok_bind]
            cases good with
            | true => rfl
            | false =>
              dsimp only
              rw [if_neg (by simp), if_neg (by simp)]
              exact ih2 s2 l
    exact loop os s last

/-- Without success, each choice had its attempt. -/
theorem tryChoices_all {σ ρ : Type} {set : Nat → Int → σ → Res σ} {attempt : σ → Res (σ × ρ × Bool)} :
    ∀ {cs : List (List (Nat × Int))} {s s' : σ} {last l : Option ρ}, tryChoices (setAll set) attempt cs s last = .ok (s', l, false) →
      ∀ c ∈ cs, ∃ s0 s1 s2 r, setAll set c s0 = .ok s1 ∧ attempt s1 = .ok (s2, r, false)
  | [], _, _, _, _, _, c, hc => by simp at hc
  | d :: cs, s, s', last, l, h, c, hc => by
    rw [tryChoices] at h
    cases h1 : setAll set d s with
    | error e => rw [h1] at h; simp at h
    | ok s1 =>
      rw [h1] at h
      dsimp only at h
      cases h2 : attempt s1 with
      | error e => rw [h2] at h; simp at h
      | ok y =>
        obtain ⟨s2, r, g⟩ := y
        rw [h2] at h
        cases g with
        | true => simp at h
        | false =>
          dsimp only at h
          rcases List.mem_cons.1 hc with rfl | hc
          · exact ⟨s, s1, s2, r, h1, h2⟩
          · exact tryChoices_all h c hc

/-- The result is that of an attempt. -/
theorem tryChoices_last {σ ρ : Type} {choose : List (Nat × Int) → σ → Res σ} {attempt : σ → Res (σ × ρ × Bool)} :
    ∀ {cs : List (List (Nat × Int))} {s s' : σ} {last l : Option ρ} {g : Bool}, cs ≠ [] → tryChoices choose attempt cs s last = .ok (s', l, g) →
      ∃ c ∈ cs, ∃ s0 s1 r, choose c s0 = .ok s1 ∧ attempt s1 = .ok (s', r, g) ∧ l = some r
  | [], _, _, _, _, _, hne, _ => absurd rfl hne
  | d :: cs, s, s', last, l, g, _, h => by
    rw [tryChoices] at h
    cases h1 : choose d s with
    | error e => rw [h1] at h; simp at h
    | ok s1 =>
      rw [h1] at h
      dsimp only at h
      cases h2 : attempt s1 with
      | error e => rw [h2] at h; simp at h
      | ok y =>
        obtain ⟨s2, r, g'⟩ := y
        rw [h2] at h
        cases g' with
        | true =>
          simp only [Except.ok.injEq, Prod.mk.injEq] at h
          obtain ⟨rfl, rfl, rfl⟩ := h
          exact ⟨d, by simp, s, s1, r, h1, h2, rfl⟩
        | false =>
          dsimp only at h
          cases cs with
          | nil =>
            simp only [tryChoices, Except.ok.injEq, Prod.mk.injEq] at h
            obtain ⟨rfl, rfl, rfl⟩ := h
            exact ⟨d, by simp, s, s1, r, h1, h2, rfl⟩
          | cons c cs =>
            obtain ⟨c', hc', x⟩ := tryChoices_last (by simp) h
            exact ⟨c', by simp [List.mem_cons.1 hc'], x⟩

/-- The offset of a track. -/
def offsetOf (s : RetryState) (n : Nat) : Option Int := (movGet s.tracks n).map (·.offset)

theorem mkv_settable (srs main : Bytes) (f : FileData) : Settable setOffset (mkvAttempt srs main f) offsetOf := by
  constructor
  · intro s n o h
    unfold offsetOf at h
    unfold setOffset
    cases h1 : movGet s.tracks n with
    | none => rw [h1] at h; simp at h
    | some t =>
      rw [h1] at h
      simp only [Option.map_some, Option.some.injEq] at h
      dsimp only
      rw [if_pos h]
  · intro s n o s' h
    unfold setOffset at h
    split at h
    · simp at h
    · rename_i t h1
      split at h
      · simp only [Except.ok.injEq] at h
        subst h
        unfold offsetOf
        rw [h1]
        simpa using by assumption
      · split at h
        · simp at h
        · simp only [Except.ok.injEq] at h
          subst h
          unfold offsetOf
          dsimp only
          rw [movGet_dictPut, if_pos rfl]
          rfl
  · intro s n o s' h m hm
    unfold setOffset at h
    split at h
    · simp at h
    · split at h
      · simp only [Except.ok.injEq] at h
        rw [h]
      · split at h
        · simp at h
        · simp only [Except.ok.injEq] at h
          subst h
          unfold offsetOf
          dsimp only
          rw [movGet_dictPut, if_neg hm]
  · intro s s' r g h n
    unfold mkvAttempt at h
    simp only [bind_eq_ok, pure_eq_ok, Except.ok.injEq, Prod.mk.injEq] at h
    obtain ⟨x, _, y, _, h, _⟩ := h
    subst h
    rfl

/-! ### The suggestions -/

theorem suggested_ne (lo hi cur : Int) (l : List Int) : suggested lo hi cur l ≠ [] := by
  unfold suggested
  dsimp only
  generalize _ ++ _ ++ (sortOffsets lo hi l (-1, -1, [])).2.2.reverse = x
  by_cases h : x = []
  · rw [if_pos h]; simp
  · rw [if_neg h]; exact h

/-- What `sortOffsets` has found so far. -/
structure Sorted3 (lo hi : Int) (seen : List Int) (r : Int × Int × List Int) : Prop where
  below : (r.1 = -1 ∧ ∀ o ∈ seen, ¬ o < lo) ∨ (r.1 ∈ seen ∧ r.1 < lo ∧ ∀ o ∈ seen, o < lo → o ≤ r.1)
  above : (r.2.1 = -1 ∧ ∀ o ∈ seen, ¬ hi < o) ∨ (r.2.1 ∈ seen ∧ hi < r.2.1 ∧ ∀ o ∈ seen, hi < o → r.2.1 ≤ o)
  between : ∀ o, o ∈ r.2.2 ↔ o ∈ seen ∧ lo < o ∧ o < hi

theorem sortOffsets_spec {lo hi : Int} (hlh : lo ≤ hi) : ∀ (l seen : List Int) (r : Int × Int × List Int), (∀ o ∈ seen ++ l, 0 ≤ o) →
    Sorted3 lo hi seen r → Sorted3 lo hi (seen ++ l) (sortOffsets lo hi l r)
  | [], seen, r, _, h => by rw [List.append_nil]; exact h
  | o :: l, seen, (x, y, z), hp, h => by
    rw [sortOffsets, show seen ++ o :: l = (seen ++ [o]) ++ l by simp]
    apply sortOffsets_spec hlh l (seen ++ [o])
    · simpa using hp
    · obtain ⟨h1, h2, h3⟩ := h
      dsimp only at h1 h2 h3
      have ho : 0 ≤ o := hp o (by simp)
      by_cases c1 : o < lo
      · rw [if_pos c1]
        have hnh : ¬ hi < o := by omega
        refine ⟨Or.inr ?_, ?_, ?_⟩
        · dsimp only
          rcases h1 with ⟨rfl, h1⟩ | ⟨ha, hb, hc⟩
          · rw [if_pos (by omega)]
            refine ⟨by simp, c1, ?_⟩
            intro o' ho' hlt
            rcases List.mem_append.1 ho' with ho' | ho'
            · exact absurd hlt (h1 o' ho')
            · rw [List.mem_singleton.1 ho']; omega
          · split
            · refine ⟨by simp, c1, ?_⟩
              intro o' ho' hlt
              rcases List.mem_append.1 ho' with ho' | ho'
              · have := hc o' ho' hlt; omega
              · rw [List.mem_singleton.1 ho']; omega
            · refine ⟨by simp [ha], hb, ?_⟩
              intro o' ho' hlt
              rcases List.mem_append.1 ho' with ho' | ho'
              · exact hc o' ho' hlt
              · rw [List.mem_singleton.1 ho']; omega
        · dsimp only
          rcases h2 with ⟨rfl, h2⟩ | ⟨ha, hb, hc⟩
          · refine Or.inl ⟨rfl, ?_⟩
            intro o' ho'
            rcases List.mem_append.1 ho' with ho' | ho'
            · exact h2 o' ho'
            · rw [List.mem_singleton.1 ho']; exact hnh
          · refine Or.inr ⟨by simp [ha], hb, ?_⟩
            intro o' ho' hlt
            rcases List.mem_append.1 ho' with ho' | ho'
            · exact hc o' ho' hlt
            · rw [List.mem_singleton.1 ho'] at hlt; omega
        · intro o'
          dsimp only
          rw [h3]
          constructor
          · rintro ⟨ha, hb⟩; exact ⟨by simp [ha], hb⟩
          · rintro ⟨ha, hb⟩
            rcases List.mem_append.1 ha with ha | ha
            · exact ⟨ha, hb⟩
            · rw [List.mem_singleton.1 ha] at hb; omega
      · rw [if_neg c1]
        have below : (x = -1 ∧ ∀ o' ∈ seen ++ [o], ¬ o' < lo) ∨ (x ∈ seen ++ [o] ∧ x < lo ∧ ∀ o' ∈ seen ++ [o], o' < lo → o' ≤ x) := by
          rcases h1 with ⟨rfl, h1⟩ | ⟨ha, hb, hc⟩
          · refine Or.inl ⟨rfl, ?_⟩
            intro o' ho'
            rcases List.mem_append.1 ho' with ho' | ho'
            · exact h1 o' ho'
            · rw [List.mem_singleton.1 ho']; exact c1
          · refine Or.inr ⟨by simp [ha], hb, ?_⟩
            intro o' ho' hlt
            rcases List.mem_append.1 ho' with ho' | ho'
            · exact hc o' ho' hlt
            · rw [List.mem_singleton.1 ho'] at hlt; omega
        by_cases c2 : o > hi
        · rw [if_pos c2]
          refine ⟨below, Or.inr ?_, ?_⟩
          · dsimp only
            rcases h2 with ⟨rfl, h2⟩ | ⟨ha, hb, hc⟩
            · rw [if_pos (Or.inr rfl)]
              refine ⟨by simp, c2, ?_⟩
              intro o' ho' hlt
              rcases List.mem_append.1 ho' with ho' | ho'
              · exact absurd hlt (h2 o' ho')
              · rw [List.mem_singleton.1 ho']; omega
            · have hy : 0 ≤ y := hp y (by simp [ha])
              split
              · refine ⟨by simp, c2, ?_⟩
                intro o' ho' hlt
                rcases List.mem_append.1 ho' with ho' | ho'
                · have := hc o' ho' hlt; omega
                · rw [List.mem_singleton.1 ho']; omega
              · refine ⟨by simp [ha], hb, ?_⟩
                intro o' ho' hlt
                rcases List.mem_append.1 ho' with ho' | ho'
                · exact hc o' ho' hlt
                · rw [List.mem_singleton.1 ho']; omega
          · intro o'
            dsimp only
            rw [h3]
            constructor
            · rintro ⟨ha, hb⟩; exact ⟨by simp [ha], hb⟩
            · rintro ⟨ha, hb⟩
              rcases List.mem_append.1 ha with ha | ha
              · exact ⟨ha, hb⟩
              · rw [List.mem_singleton.1 ha] at hb; omega
        · rw [if_neg c2]
          have above : (y = -1 ∧ ∀ o' ∈ seen ++ [o], ¬ hi < o') ∨ (y ∈ seen ++ [o] ∧ hi < y ∧ ∀ o' ∈ seen ++ [o], hi < o' → y ≤ o') := by
            rcases h2 with ⟨rfl, h2⟩ | ⟨ha, hb, hc⟩
            · refine Or.inl ⟨rfl, ?_⟩
              intro o' ho'
              rcases List.mem_append.1 ho' with ho' | ho'
              · exact h2 o' ho'
              · rw [List.mem_singleton.1 ho']; exact c2
            · refine Or.inr ⟨by simp [ha], hb, ?_⟩
              intro o' ho' hlt
              rcases List.mem_append.1 ho' with ho' | ho'
              · exact hc o' ho' hlt
              · rw [List.mem_singleton.1 ho'] at hlt; omega
          by_cases c3 : lo < o ∧ o < hi
          · rw [if_pos c3]
            refine ⟨below, above, ?_⟩
            intro o'
            dsimp only
            rw [List.mem_append, List.mem_append, h3, List.mem_singleton]
            constructor
            · rintro (⟨ha, hb⟩ | rfl)
              · exact ⟨Or.inl ha, hb⟩
              · exact ⟨Or.inr rfl, c3⟩
            · rintro ⟨ha | ha, hb⟩
              · exact Or.inl ⟨ha, hb⟩
              · exact Or.inr ha
          · rw [if_neg c3]
            refine ⟨below, above, ?_⟩
            intro o'
            dsimp only
            rw [List.mem_append, h3, List.mem_singleton]
            constructor
            · rintro ⟨ha, hb⟩; exact ⟨Or.inl ha, hb⟩
            · rintro ⟨ha | rfl, hb⟩
              · exact ⟨ha, hb⟩
              · exact absurd hb c3

theorem minOf_le : ∀ (l : List Int) (a : Int), l.foldl min a ≤ a ∧ ∀ x ∈ l, l.foldl min a ≤ x
  | [], a => ⟨Int.le_refl _, by simp⟩
  | b :: l, a => by
    rw [List.foldl_cons]
    obtain ⟨h1, h2⟩ := minOf_le l (min a b)
    refine ⟨by omega, ?_⟩
    intro x hx
    rcases List.mem_cons.1 hx with rfl | hx
    · omega
    · exact h2 x hx

theorem le_foldl_max : ∀ (l : List Int) (a : Int), a ≤ l.foldl max a ∧ ∀ x ∈ l, x ≤ l.foldl max a
  | [], a => ⟨Int.le_refl _, by simp⟩
  | b :: l, a => by
    rw [List.foldl_cons]
    obtain ⟨h1, h2⟩ := le_foldl_max l (max a b)
    refine ⟨by omega, ?_⟩
    intro x hx
    rcases List.mem_cons.1 hx with rfl | hx
    · omega
    · exact h2 x hx

theorem foldl_min_mem : ∀ (l : List Int) (a : Int), l.foldl min a = a ∨ l.foldl min a ∈ l
  | [], a => Or.inl rfl
  | b :: l, a => by
    rw [List.foldl_cons]
    rcases foldl_min_mem l (min a b) with h | h
    · rw [h]
      by_cases c : a ≤ b
      · left; omega
      · right; rw [show min a b = b by omega]; simp
    · right; simp [h]

theorem foldl_max_mem : ∀ (l : List Int) (a : Int), l.foldl max a = a ∨ l.foldl max a ∈ l
  | [], a => Or.inl rfl
  | b :: l, a => by
    rw [List.foldl_cons]
    rcases foldl_max_mem l (max a b) with h | h
    · rw [h]
      by_cases c : b ≤ a
      · left; omega
      · right; rw [show max a b = b by omega]; simp
    · right; simp [h]

end Rescene
