import Verif.Props.Mkv
import Verif.Lemmas.NoFuel
/-
C65: loops over the elements of an MKV file end.
-/
namespace Rescene.Props
open Rescene Rescene.Spec

theorem readAt_le (file : Bytes) (p n : Nat) (h : p ≤ file.length) : p + (readAt file p n).length ≤ file.length := by
  simp [readAt]; omega

theorem ebmlStreamLoop_rest : ∀ {n size : Nat} {s : Bytes} {v : Nat} {r : Bytes}, ebmlStreamLoop size n s = .ok (v, r) →
    r.length + n = s.length := by
  intro n
  induction n with
  | zero => intro size s v r h; injection h with h; injection h with _ h; rw [← h]; rfl
  | succ n ih =>
    intro size s v r h
    unfold ebmlStreamLoop at h
    cases s with
    | nil => simp [readByte] at h
    | cons b s =>
      simp only [readByte, ok_bind] at h
      have := ih h
      simp only [List.length_cons]
      omega

theorem ebmlStream_rest {s : Bytes} {v bc : Nat} {r : Bytes} (h : getEbmlUIntStream s = .ok (v, bc, r)) : r.length + bc ≤ s.length := by
  unfold getEbmlUIntStream at h
  cases s with
  | nil => simp [readByte] at h
  | cons b s =>
    simp only [readByte, ok_bind, bind_eq_ok, pure_eq_ok, Except.ok.injEq] at h
    obtain ⟨⟨size, r'⟩, h1, h2⟩ := h
    injection h2 with _ h2
    injection h2 with h2 h3
    have := ebmlStreamLoop_rest h1
    subst h3
    subst h2
    simp only [List.length_cons]
    omega

theorem xiph_rest : ∀ {s : Bytes} {v n : Nat} {r : Bytes}, xiphRead s = .ok (v, n, r) → r.length + n = s.length := by
  intro s
  induction s with
  | nil => intro v n r h; simp [xiphRead] at h
  | cons b s ih =>
    intro v n r h
    unfold xiphRead at h
    split at h
    · simp only [bind_eq_ok, pure_eq_ok, Except.ok.injEq] at h
      obtain ⟨⟨v', n', r'⟩, h1, h2⟩ := h
      injection h2 with _ h2
      injection h2 with h2 h3
      have := ih h1
      subst h3
      subst h2
      dsimp only at this ⊢
      simp only [List.length_cons]
      omega
    · injection h with h
      injection h with _ h
      injection h with h2 h3
      subst h3
      simp only [List.length_cons]
      omega

theorem laceLoop_rest {t : Lace} {count : Nat} {dataLen : Int} : ∀ {left : Nat} {sizes : List Int} {consumed : Nat} {s : Bytes} {l : List Int}
    {c : Nat} {r : Bytes}, laceLoop t count dataLen left sizes consumed s = .ok (l, c, r) → r.length + c ≤ s.length + consumed := by
  intro left
  induction left with
  | zero =>
    intro sizes consumed s l c r h
    injection h with h
    injection h with _ h
    injection h with h2 h3
    rw [← h2, ← h3]
    omega
  | succ left ih =>
    intro sizes consumed s l c r h
    unfold laceLoop at h
    cases t with
    | none => exact ih h
    | fixed => exact ih h
    | xiph =>
      dsimp only at h
      split at h
      · simp only [bind_eq_ok] at h
        obtain ⟨⟨v, n, s'⟩, h1, h⟩ := h
        have h2 := ih h
        have := xiph_rest h1
        dsimp only at h2
        omega
      · exact ih h
    | ebml =>
      dsimp only at h
      split at h
      · simp only [bind_eq_ok] at h
        obtain ⟨⟨v, n, s'⟩, h1, h⟩ := h
        have h2 := ih h
        have := ebmlStream_rest h1
        dsimp only at h2
        omega
      · split at h
        · simp only [bind_eq_ok] at h
          obtain ⟨⟨v, n, s'⟩, h1, h⟩ := h
          dsimp only at h
          split at h
          · simp [throw_eq_error] at h
          · have h2 := ih h
            have := ebmlStream_rest h1
            omega
        · exact ih h

theorem frames_rest {t : Lace} {dataLen : Int} {s : Bytes} {l : List Int} {c : Nat} {r : Bytes}
    (h : blockFrameLengths t dataLen s = .ok (l, c, r)) : r.length + c ≤ s.length := by
  unfold blockFrameLengths at h
  split at h
  · have := laceLoop_rest h; omega
  · cases s with
    | nil => simp [readByte] at h
    | cons b s =>
      simp only [readByte, ok_bind] at h
      have := laceLoop_rest h
      simp only [List.length_cons]
      omega

theorem blockRead_forward {file : Bytes} {p size q : Nat} {bl : EbmlBlock} (h : blockRead file p size = .ok (bl, q)) :
    p + bl.head.length ≤ q := by
  unfold blockRead at h
  cases hd : file.drop p with
  | nil => rw [hd] at h; simp at h
  | cons b t =>
    rw [hd] at h
    have hp : p < file.length := by
      rcases Nat.lt_or_ge p file.length with h | h
      · exact h
      · rw [List.drop_eq_nil_of_le h] at hd; simp at hd
    simp only [bind_eq_ok] at h
    obtain ⟨track, _, h⟩ := h
    split at h
    · simp [throw_eq_error] at h
    · simp only [bind_eq_ok] at h
      obtain ⟨⟨frames, consumed, rest⟩, hf, h⟩ := h
      injection h with h
      injection h with h1 h2
      have hr := frames_rest hf
      have h3 := readAt_le file p (max (uintLength b.toNat) 1) (by omega)
      have h4 := readAt_le file (p + (readAt file p (max (uintLength b.toNat) 1)).length) 3 (by omega)
      rw [List.length_drop, List.length_append] at hr
      have hc : (readAt file (file.length - rest.length - consumed) consumed).length ≤ consumed := by simp [readAt]; omega
      rw [← h1]
      dsimp only at h2 ⊢
      rw [List.length_append, List.length_append]
      omega

theorem ebmlRead_forward {mode : EbmlMode} {file : Bytes} {pos : Nat} {e : EbmlElem} (h : ebmlRead mode file pos = .ok (some e)) :
    pos + 2 ≤ file.length ∧ pos + 2 ≤ e.pos ∧ (pos : Int) + 2 ≤ e.pos + e.length := by
  unfold ebmlRead at h
  split at h
  · simp at h
  · rename_i hlen
    split at h
    · simp at h
    · dsimp only at h
      split at h
      · simp at h
      · rename_i hn
        split at h
        · simp at h
        · split at h
          · simp at h
          · rename_i hk
            simp only [not_or] at hk
            obtain ⟨hk, _⟩ := hk
            simp only [bind_eq_ok] at h
            obtain ⟨size, _, h⟩ := h
            split at h
            · simp [throw_eq_error] at h
            · split at h
              · simp only [bind_eq_ok] at h
                obtain ⟨⟨bl, q⟩, hb, h⟩ := h
                injection h with h
                injection h with h
                have := blockRead_forward hb
                subst h
                dsimp only
                refine ⟨by omega, by omega, by omega⟩
              · injection h with h
                injection h with h
                subst h
                dsimp only
                refine ⟨by omega, by omega, by omega⟩

theorem ebmlContents_forward {mode : EbmlMode} {how : EbmlHow} {file : Bytes} {e : EbmlElem} {pos q : Nat} {d : Bytes}
    (h : ebmlContents mode how file e = .ok (d, q)) (h1 : pos + 2 ≤ e.pos) (h2 : (pos : Int) + 2 ≤ e.pos + e.length) : pos + 2 ≤ q := by
  unfold ebmlContents at h
  cases how with
  | child => injection h with h; injection h with _ h; omega
  | skip =>
    dsimp only at h
    split at h
    · injection h with h; injection h with _ h; omega
    · injection h with h; injection h with _ h; omega
  | read =>
    dsimp only at h
    split at h
    · injection h with h; injection h with _ h; omega
    · split at h
      · injection h with h; injection h with _ h; omega
      · split at h
        · injection h with h; injection h with _ h; omega
        · simp at h

/-- C65: whatever the file and whatever the loop does with the elements, a loop over the elements of
an MKV file or of the SRS of one ends after at most one step for each byte of the file, because more
steps make no difference. -/
theorem mkv_loops_end {σ : Type} {mode : EbmlMode} {again : Bool} {how : σ → EbmlElem → EbmlHow} {file : Bytes}
    {f : σ → EbmlElem → Bytes → Res (σ × Bool)} :
    ∀ (n m pos : Nat) (s : σ) (done : Bool), file.length + 1 ≤ n + pos → file.length + 1 ≤ m + pos → 0 < n → 0 < m →
    mkvLoop mode again how file f n pos s done = mkvLoop mode again how file f m pos s done := by
  intro n
  induction n with
  | zero => intro m pos s _ _ _ h _; omega
  | succ n ih =>
    intro m pos s done hn hm _ hm0
    obtain ⟨m, rfl⟩ : ∃ k, m = k + 1 := ⟨m - 1, by omega⟩
    unfold mkvLoop
    cases hr : ebmlRead mode file pos with
    | error e => rfl
    | ok o =>
      rw [ok_bind, ok_bind]
      cases o with
      | none => rfl
      | some e =>
        obtain ⟨h1, h2, h3⟩ := ebmlRead_forward hr
        dsimp only
        split
        · rfl
        · cases hc : ebmlContents mode (how s e) file e with
          | error e => rfl
          | ok x =>
            obtain ⟨d, q⟩ := x
            have hq := ebmlContents_forward hc h2 h3
            rw [ok_bind, ok_bind]
            dsimp only
            cases f s e d with
            | error e => rfl
            | ok y =>
              obtain ⟨s', done'⟩ := y
              rw [ok_bind, ok_bind]
              dsimp only
              split
              · rfl
              · exact ih m q s' done' (by omega) (by omega) (by omega) (by omega)

theorem uint_no_fuel : ∀ (b : Bytes) (n k : Nat), getEbmlUInt b n k ≠ .error .fuel := by
  have hup : ∀ (w : Nat) (b : Bytes) (p : Nat), unpackBeAt w b p ≠ .error .fuel := by
    intro w b p; unfold unpackBeAt; split <;> simp
  have hloop : ∀ (b : Bytes) (k size off : Nat), ebmlUIntLoop b size k off ≠ .error .fuel := by
    intro b k
    induction k with
    | zero => intro size off; simp [ebmlUIntLoop]
    | succ k ih =>
      intro size off
      unfold ebmlUIntLoop
      cases h : unpackBeAt 1 b off with
      | error e => rw [error_bind]; intro hh; injection hh with hh; subst hh; exact (hup _ _ _) h
      | ok v => rw [ok_bind]; exact ih _ _
  intro b n k
  unfold getEbmlUInt
  cases h : unpackBeAt 1 b n with
  | error e => rw [error_bind]; intro hh; injection hh with hh; subst hh; exact (hup _ _ _) h
  | ok v => rw [ok_bind]; exact hloop _ _ _ _

/-- The step budget of a loop that starts at the beginning of a file is never used up. -/
theorem mkv_walk_ends {σ : Type} {mode : EbmlMode} {again : Bool} {how : σ → EbmlElem → EbmlHow} {file : Bytes}
    {f : σ → EbmlElem → Bytes → Res (σ × Bool)} (hf : ∀ s e d, f s e d ≠ .error .fuel) :
    ∀ (n pos : Nat) (s : σ) (done : Bool), file.length + 1 ≤ n + pos → 0 < n → mkvLoop mode again how file f n pos s done ≠ .error .fuel := by
  have hread : ∀ pos, ebmlRead mode file pos ≠ .error .fuel := by
    have hget := uint_no_fuel
    have hrb : ∀ s, readByte s ≠ .error .fuel := by intro s; cases s <;> simp [readByte]
    have hsl : ∀ (n size : Nat) (s : Bytes), ebmlStreamLoop size n s ≠ .error .fuel := by
      intro n
      induction n with
      | zero => intro size s; simp [ebmlStreamLoop]
      | succ n ih =>
        intro size s
        unfold ebmlStreamLoop
        cases h : readByte s with
        | error e => rw [error_bind]; intro hh; injection hh with hh; subst hh; exact (hrb s) h
        | ok x => rw [ok_bind]; exact ih _ _
    have hst : ∀ s, getEbmlUIntStream s ≠ .error .fuel := by
      intro s
      unfold getEbmlUIntStream
      cases h : readByte s with
      | error e => rw [error_bind]; intro hh; injection hh with hh; subst hh; exact (hrb s) h
      | ok x =>
        rw [ok_bind]
        dsimp only
        cases h' : ebmlStreamLoop (x.1 &&& 0xFF >>> uintLength x.1) (uintLength x.1 - 1) x.2 with
        | error e => rw [error_bind]; intro hh; injection hh with hh; subst hh; exact (hsl _ _ _) h'
        | ok y => rw [ok_bind]; simp [pure_eq_ok]
    have hxi : ∀ s, xiphRead s ≠ .error .fuel := by
      intro s
      induction s with
      | nil => simp [xiphRead]
      | cons b s ih =>
        unfold xiphRead
        split
        · cases h : xiphRead s with
          | error e => rw [error_bind]; intro hh; injection hh with hh; subst hh; exact (ih) h
          | ok y => rw [ok_bind]; simp [pure_eq_ok]
        · simp
    have hlace : ∀ (t : Lace) (count : Nat) (dl : Int) (left : Nat) (sizes : List Int) (c : Nat) (s : Bytes),
        laceLoop t count dl left sizes c s ≠ .error .fuel := by
      intro t count dl left
      induction left with
      | zero => intro sizes c s; simp [laceLoop]
      | succ left ih =>
        intro sizes c s
        unfold laceLoop
        cases t with
        | none => exact ih _ _ _
        | fixed => exact ih _ _ _
        | xiph =>
          dsimp only
          split
          · cases h : xiphRead s with
            | error e => rw [error_bind]; intro hh; injection hh with hh; subst hh; exact (hxi s) h
            | ok y => rw [ok_bind]; exact ih _ _ _
          · exact ih _ _ _
        | ebml =>
          dsimp only
          split
          · cases h : getEbmlUIntStream s with
            | error e => rw [error_bind]; intro hh; injection hh with hh; subst hh; exact (hst s) h
            | ok y => rw [ok_bind]; exact ih _ _ _
          · split
            · cases h : getEbmlUIntStream s with
              | error e => rw [error_bind]; intro hh; injection hh with hh; subst hh; exact (hst s) h
              | ok y =>
                rw [ok_bind]
                split
                · simp [throw_eq_error]
                · exact ih _ _ _
            · exact ih _ _ _
    have hbf : ∀ t dl s, blockFrameLengths t dl s ≠ .error .fuel := by
      intro t dl s
      unfold blockFrameLengths
      split
      · exact hlace _ _ _ _ _ _ _
      · cases h : readByte s with
        | error e => rw [error_bind]; intro hh; injection hh with hh; subst hh; exact (hrb s) h
        | ok y => rw [ok_bind]; exact hlace _ _ _ _ _ _ _
    have hbr : ∀ p size, blockRead file p size ≠ .error .fuel := by
      intro p size
      unfold blockRead
      split
      · simp
      · dsimp only
        cases h : getEbmlUInt (readAt file p (max (uintLength _) 1)) 0 (uintLength _) with
        | error e => rw [error_bind]; intro hh; injection hh with hh; subst hh; exact (hget _ _ _) h
        | ok v =>
          rw [ok_bind]
          split
          · simp [throw_eq_error]
          · refine fun hh => ?_
            simp only [bind, Except.bind] at hh
            split at hh
            · rename_i h2
              injection hh with hh
              subst hh
              exact hbf _ _ _ h2
            · simp [pure_eq_ok] at hh
    intro pos
    unfold ebmlRead
    split
    · simp
    · split
      · simp
      · dsimp only
        split
        · simp
        · split
          · simp
          · split
            · simp
            · refine fun hh => ?_
              simp only [bind, Except.bind] at hh
              split at hh
              · rename_i h2
                injection hh with hh
                subst hh
                exact hget _ _ _ h2
              · split at hh
                · simp [throw_eq_error] at hh
                · split at hh
                  · split at hh
                    · rename_i h2
                      injection hh with hh
                      subst hh
                      exact hbr _ _ h2
                    · simp [pure_eq_ok] at hh
                  · simp [pure_eq_ok] at hh
  intro n
  induction n with
  | zero => intro pos s done _ h; omega
  | succ n ih =>
    intro pos s done hn _
    unfold mkvLoop
    cases hr : ebmlRead mode file pos with
    | error e => rw [error_bind]; intro hh; injection hh with hh; subst hh; exact (hread pos) hr
    | ok o =>
      rw [ok_bind]
      cases o with
      | none => simp [pure_eq_ok]
      | some e =>
        obtain ⟨h1, h2, h3⟩ := ebmlRead_forward hr
        dsimp only
        split
        · simp [pure_eq_ok]
        · cases hc : ebmlContents mode (how s e) file e with
          | error e' =>
            rw [error_bind]
            intro hh
            injection hh with hh
            subst hh
            revert hc
            unfold ebmlContents
            split
            · simp
            · split <;> simp
            · split
              · simp
              · split
                · simp
                · split <;> simp
          | ok x =>
            obtain ⟨d, q⟩ := x
            have hq := ebmlContents_forward hc h2 h3
            rw [ok_bind]
            dsimp only
            cases hfe : f s e d with
            | error e' => rw [error_bind]; intro hh; injection hh with hh; subst hh; exact (hf s e d) hfe
            | ok y =>
              obtain ⟨s', done'⟩ := y
              rw [ok_bind]
              dsimp only
              split
              · simp [pure_eq_ok]
              · exact ih q s' done' (by omega) (by omega)

theorem main_no_fuel (mains : List (Nat × Bytes)) (cur : Nat) (strip : Bool) (id data : Bytes) :
    mkvMainItem mains cur strip id data ≠ .error .fuel := by
  unfold mkvMainItem
  split
  · cases h : getEbmlUInt data 0 data.length with
    | error e => rw [error_bind]; intro hh; injection hh with hh; subst hh; exact (uint_no_fuel _ _ _) h
    | ok v => rw [ok_bind]; simp [pure_eq_ok]
  · split
    · cases h : getEbmlUInt data 0 data.length with
      | error e => rw [error_bind]; intro hh; injection hh with hh; subst hh; exact (uint_no_fuel _ _ _) h
      | ok v => rw [ok_bind]; simp [pure_eq_ok]
    · split
      · split
        · split <;> simp
        · simp
      · simp

/-- Looking for the tracks of a sample in a main file ends. -/
theorem mkv_find_ends (tracks : MkvTracks) (main : Bytes) : mkvFind tracks main ≠ .error .fuel := by
  unfold mkvFind
  have : mkvWalk .mkv true mkvFindHow main mkvFindItem { tracks := tracks } ≠ .error .fuel := by
    refine mkv_walk_ends ?_ _ _ _ _ (by omega) (by omega)
    intro s e d
    unfold mkvFindItem
    split
    · simp
    · split
      · split <;> simp
      · cases h : mkvMainItem s.mains s.cur s.strip e.id d with
        | error e => rw [error_bind]; intro hh; injection hh with hh; subst hh; exact (main_no_fuel _ _ _ _ _) h
        | ok v => rw [ok_bind]; simp [pure_eq_ok]
  cases h : mkvWalk .mkv true mkvFindHow main mkvFindItem { tracks := tracks } with
  | error e => rw [error_bind]; intro hh; injection hh with hh; subst hh; exact this h
  | ok s => rw [ok_bind]; simp [pure_eq_ok]

/-- Reading the data of the tracks and the attachments from a main file ends. -/
theorem mkv_extract_ends (tracks : MkvTracks) (main : Bytes) : mkvExtract tracks main ≠ .error .fuel := by
  unfold mkvExtract
  have : mkvWalk .mkv true (mkvExtractHow tracks (mkvStart tracks)) main (mkvExtractItem tracks) {} ≠ .error .fuel := by
    refine mkv_walk_ends ?_ _ _ _ _ (by omega) (by omega)
    intro s e d
    unfold mkvExtractItem
    split
    · unfold mkvBlockExtract
      split
      · simp
      · split
        · simp
        · split <;> simp
    · split
      · simp
      · split
        · split
          · simp
          · split <;> simp
        · cases h : mkvMainItem s.mains s.cur s.strip e.id d with
          | error e => rw [error_bind]; intro hh; injection hh with hh; subst hh; exact (main_no_fuel _ _ _ _ _) h
          | ok v => rw [ok_bind]; simp [pure_eq_ok]
  cases h : mkvWalk .mkv true (mkvExtractHow tracks (mkvStart tracks)) main (mkvExtractItem tracks) {} with
  | error e => rw [error_bind]; intro hh; injection hh with hh; subst hh; exact this h
  | ok s => rw [ok_bind]; simp [pure_eq_ok]

/-- Rebuilding a sample ends. -/
theorem mkv_rebuild_ends (srs : Bytes) (flags : Nat) (tracks : MkvTracks) (files : TrackFiles) (atts : MkvAttach) :
    mkvRebuild srs flags tracks files atts ≠ .error .fuel := by
  unfold mkvRebuild
  have : mkvWalk .srs true (mkvRebuildHow flags) srs (mkvRebuildItem tracks) { files := files, atts := atts } ≠ .error .fuel := by
    refine mkv_walk_ends ?_ _ _ _ _ (by omega) (by omega)
    intro s e d
    unfold mkvRebuildItem
    split
    · simp
    · dsimp only
      split
      · split
        · simp
        · split
          · simp
          · rename_i r _
            cases h : takeLength r e.length with
            | error e' =>
              rw [error_bind]
              intro hh
              injection hh with hh
              subst hh
              revert h
              unfold takeLength
              split
              · simp
              · split <;> simp
            | ok v => rw [ok_bind]; simp [pure_eq_ok]
      · split
        · split
          · simp
          · split <;> simp
        · simp
  cases h : mkvWalk .srs true (mkvRebuildHow flags) srs (mkvRebuildItem tracks) { files := files, atts := atts } with
  | error e => rw [error_bind]; intro hh; injection hh with hh; subst hh; exact this h
  | ok s => rw [ok_bind]; simp [pure_eq_ok]

theorem pack_never_fuel (w n : Nat) : pack w n ≠ .error .fuel := by
  unfold pack
  split <;> simp

theorem packInt_never_fuel (w : Nat) (n : Int) : packInt w n ≠ .error .fuel := by
  unfold packInt
  split
  · simp
  · exact pack_never_fuel _ _

theorem utf8Enc_never_fuel : ∀ s : Str, utf8Enc s ≠ .error .fuel
  | [] => by simp [utf8Enc]
  | c :: s => by
    unfold utf8Enc
    split
    · simp
    · exact bind_no_fuel (utf8Enc_never_fuel s) fun _ _ => by simp

theorem fileParse_never_fuel (b : Bytes) : fileParse b ≠ .error .fuel := by
  unfold fileParse
  split
  · simp
  · exact bind_no_fuel unpackAt_no_fuel fun _ _ => bind_no_fuel unpackAt_no_fuel fun _ _ => bind_no_fuel (utf8Dec_no_fuel _) fun _ _ =>
      bind_no_fuel unpackAt_no_fuel fun _ _ => bind_no_fuel (utf8Dec_no_fuel _) fun _ _ => bind_no_fuel unpackAt_no_fuel fun _ _ =>
        bind_no_fuel unpackAt_no_fuel fun _ _ => by simp

theorem trackParse_never_fuel (b : Bytes) : trackParse b ≠ .error .fuel := by
  unfold trackParse
  split
  · simp
  · refine bind_no_fuel unpackAt_no_fuel fun _ _ => bind_no_fuel ?_ fun _ _ =>
      bind_no_fuel unpackAt_no_fuel fun _ _ => bind_no_fuel unpackAt_no_fuel fun _ _ => bind_no_fuel unpackAt_no_fuel fun _ _ => by simp
    split <;> exact bind_no_fuel unpackAt_no_fuel fun _ _ => by simp

theorem mapM_never_fuel {α β : Type} {f : α → Res β} (h : ∀ x, f x ≠ .error .fuel) : ∀ l : List α, l.mapM f ≠ .error .fuel
  | [] => by simp
  | a :: l => by
    rw [List.mapM_cons]
    exact bind_no_fuel (h a) fun _ _ => bind_no_fuel (mapM_never_fuel h l) fun _ _ => by simp

theorem ebmlElement_never_fuel (id data : Bytes) : ebmlElement id data ≠ .error .fuel := by
  unfold ebmlElement
  refine bind_no_fuel ?_ fun _ _ => by simp
  unfold makeEbmlUInt
  split <;> simp

theorem mkvTrackBytes_never_fuel (t : MkvTrack) : mkvTrackBytes t ≠ .error .fuel := by
  unfold mkvTrackBytes
  split
  · simp
  · unfold trackSerialize
    refine bind_no_fuel (pack_never_fuel _ _) fun _ _ => bind_no_fuel ?_ fun _ _ => bind_no_fuel ?_ fun _ _ =>
      bind_no_fuel (packInt_never_fuel _ _) fun _ _ => bind_no_fuel (pack_never_fuel _ _) fun _ _ => by simp
    · split <;> exact pack_never_fuel _ _
    · split <;> exact pack_never_fuel _ _

theorem mkvOwn_never_fuel (app name : Str) (size crc : Nat) (tracks : MkvTracks) (big : Bool) :
    mkvOwn app name size crc tracks big ≠ .error .fuel := by
  unfold mkvOwn
  refine bind_no_fuel ?_ fun _ _ => bind_no_fuel (ebmlElement_never_fuel _ _) fun _ _ => bind_no_fuel (mapM_never_fuel ?_ _) fun _ _ =>
    ebmlElement_never_fuel _ _
  · unfold fileSerialize
    exact bind_no_fuel (utf8Enc_never_fuel _) fun _ _ => bind_no_fuel (utf8Enc_never_fuel _) fun _ _ => bind_no_fuel (pack_never_fuel _ _) fun _ _ =>
      bind_no_fuel (pack_never_fuel _ _) fun _ _ => bind_no_fuel (pack_never_fuel _ _) fun _ _ => bind_no_fuel (pack_never_fuel _ _) fun _ _ =>
        bind_no_fuel (pack_never_fuel _ _) fun _ _ => by simp
  · rintro ⟨n, t⟩
    exact bind_no_fuel (mkvTrackBytes_never_fuel _) fun _ _ => ebmlElement_never_fuel _ _

/-- Reading a sample ends. -/
theorem mkv_profile_ends (sample : Bytes) : mkvProfile sample ≠ .error .fuel := by
  unfold mkvProfile
  refine bind_no_fuel (mkv_walk_ends ?_ _ _ _ _ (by omega) (by omega)) fun s _ => by split <;> simp
  intro s e d
  unfold mkvProfileItem
  dsimp only
  split
  · simp
  · split
    · split <;> simp
    · unfold mkvProfileLeaf
      dsimp only
      split
      · simp
      · split
        · exact bind_no_fuel (uint_no_fuel _ _ _) fun _ _ => by simp
        · split
          · split <;> simp
          · split
            · exact bind_no_fuel (uint_no_fuel _ _ _) fun _ _ => by split <;> simp
            · split
              · split
                · split <;> simp
                · simp
              · split
                · exact bind_no_fuel (utf8Dec_no_fuel _) fun _ _ => by simp
                · simp

/-- Writing the SRS of a sample ends. -/
theorem mkv_create_ends (app name : Str) (size crc : Nat) (tracks : MkvTracks) (big : Bool) (sample : Bytes) :
    mkvCreateSrs app name size crc tracks big sample ≠ .error .fuel := by
  unfold mkvCreateSrs
  refine mkv_walk_ends ?_ _ _ _ _ (by omega) (by omega)
  intro s e d
  unfold mkvCreateItem
  dsimp only
  split
  · simp
  · split
    · exact bind_no_fuel (mkvOwn_never_fuel _ _ _ _ _ _) fun _ _ => by simp
    · simp

/-- Reading an SRS ends. -/
theorem mkv_load_ends (srs : Bytes) : mkvLoadSrs srs ≠ .error .fuel := by
  unfold mkvLoadSrs
  refine bind_no_fuel (mkv_walk_ends ?_ _ _ _ _ (by omega) (by omega)) fun s _ => by simp
  intro s e d
  unfold mkvLoadItem
  split
  · exact bind_no_fuel (uint_no_fuel _ _ _) fun _ _ => by simp
  · split
    · exact bind_no_fuel (uint_no_fuel _ _ _) fun _ _ => by simp
    · split
      · split
        · split <;> simp
        · simp
      · split
        · exact bind_no_fuel (fileParse_never_fuel _) fun _ _ => by simp
        · split
          · exact bind_no_fuel (trackParse_never_fuel _) fun _ _ => by simp
          · split <;> simp

end Rescene.Props
