import Verif.Props.WrittenBlocks
import Verif.Lemmas.Volume
import Verif.Spec.Reconstruct
/-
What `create_srr` writes.
-/
namespace Rescene.Props
open Rescene Rescene.Spec

/-- The pieces for the blocks of a volume. -/
def tracePieces (tr : List (Block × Nat)) : List Piece :=
  tr.map fun x => if x.1.btype = 0x6C then .padding (x.1.raw.drop 11) else .rar x.1

/-- The pieces for a volume. -/
def volumePieces (data : Bytes) : List Piece :=
  match readTrace data with
  | .ok tr => tracePieces tr
  | .error _ => []

theorem writePieces_append (ps qs : List Piece) {a b : Bytes} (ha : writePieces ps = .ok a) (hb : writePieces qs = .ok b) :
    writePieces (ps ++ qs) = .ok (a ++ b) := by
  induction ps generalizing a with
  | nil =>
    simp only [writePieces, Except.ok.injEq] at ha
    subst ha
    exact hb
  | cons p ps ih =>
    simp only [writePieces, bind_eq_ok, pure_eq_ok, Except.ok.injEq] at ha
    obtain ⟨raw, h1, rest, h2, rfl⟩ := ha
    rw [List.cons_append]
    simp only [writePieces, h1, ok_bind, ih h2, pure_eq_ok, List.append_assoc]

theorem createBlocks_raw {c : Bool} {rar : Path} {bs : List Block} : ∀ {oso oso' : List (Str × Path)} {raws : Bytes},
    createBlocks c rar oso bs = .ok (raws, oso') → raws = (bs.map (·.raw)).flatten := by
  induction bs with
  | nil => intro oso oso' raws h; simp [createBlocks] at h; simp [h.1]
  | cons b t ih =>
    intro oso oso' raws h
    simp only [createBlocks, bind_eq_ok, pure_eq_ok, Except.ok.injEq, Prod.mk.injEq] at h
    obtain ⟨o, _, x, hx, h, _⟩ := h
    rw [← h, ih (oso := o) (oso' := x.2) (raws := x.1) hx]
    rfl

theorem writeTrace {data : Bytes} {tr : List (Block × Nat)} : ∀ {a : Nat}, VolTiles data tr a →
    (∀ x ∈ tr, Restorable data x.1 x.2) → writePieces (tracePieces tr) = .ok ((tr.map (·.1)).map (·.raw)).flatten := by
  induction tr with
  | nil => intro a _ _; rfl
  | cons x t ih =>
    intro a hv hr
    obtain ⟨b, e⟩ := x
    obtain ⟨h1, h2, h3, h4, h5⟩ := hv
    have hrest := ih h5 (fun x hx => hr x (List.mem_cons_of_mem _ hx))
    have hb : (if b.btype = 0x6C then Piece.padding (b.raw.drop 11) else .rar b).raw = .ok b.raw := by
      rcases h4 with ⟨t1, t2, t3, t4, _⟩ | ⟨f1, _⟩
      · rw [if_pos t2]
        show mkPadding (b.raw.drop 11) = _
        rw [t1.2.2.1, h1, t4]
      · have := hr (b, e) (by simp)
        rcases this with h | h
        · exact absurd h f1
        · dsimp only at h
          rw [if_neg (by omega)]; rfl
    have hd : (if b.btype = 0x6C then Piece.padding (b.raw.drop 11) else .rar b).data = [] := by
      split <;> rfl
    unfold tracePieces at hrest ⊢
    rw [List.map_cons, writePieces, hb, ok_bind, hrest, ok_bind, hd]
    rfl

theorem writeVolume {data : Bytes} {blocks : List Block} (hg : GoodVolume data) (hr : readAll data = .ok blocks) :
    writePieces (volumePieces data) = .ok (blocks.map (·.raw)).flatten := by
  obtain ⟨hm, tr, htr, hx⟩ := hg
  have := writeTrace (volTiles_of_read hm htr) hx
  unfold readAll at hr
  rw [htr, ok_bind] at hr
  simp only [pure_eq_ok, Except.ok.injEq] at hr
  unfold volumePieces
  rw [htr, ← hr]
  exact this

/-- The pieces for the volumes. -/
def volumesPieces (vols : List (RarIn × Bytes)) : List Piece :=
  vols.flatMap fun v => .rarFile v.1.name :: volumePieces v.2

theorem writeVolumes {fs : FS} {c : Bool} {vols : List (RarIn × Bytes)} : ∀ {oso oso' : List (Str × Path)} {bytes : Bytes},
    (∀ v ∈ vols, fs v.1.exact = some v.2 ∧ GoodVolume v.2) →
    createVolumes fs c oso (vols.map (·.1)) = .ok (bytes, oso') →
    writePieces (volumesPieces vols) = .ok bytes := by
  induction vols with
  | nil =>
    intro oso oso' bytes _ h
    simp only [List.map_nil, createVolumes, Except.ok.injEq, Prod.mk.injEq] at h
    rw [← h.1]
    rfl
  | cons v t ih =>
    intro oso oso' bytes hv h
    obtain ⟨hf, hg⟩ := hv v (by simp)
    rw [List.map_cons, createVolumes, hf] at h
    simp only [bind_eq_ok, pure_eq_ok, Except.ok.injEq, Prod.mk.injEq] at h
    obtain ⟨hdr, h1, blocks, h2, x, h3, y, h4, h5, _⟩ := h
    have hrest := ih (fun v hv' => hv v (List.mem_cons_of_mem _ hv')) (oso := x.2) (oso' := y.2) (bytes := y.1) h4
    have hvol := writeVolume hg h2
    rw [← createBlocks_raw (oso := oso) (oso' := x.2) (raws := x.1) h3] at hvol
    have := writePieces_append _ _ hvol hrest
    unfold volumesPieces at this ⊢
    rw [List.flatMap_cons, List.cons_append, writePieces]
    show (mkRarFile v.1.name >>= _) = _
    rw [h1, ok_bind, this, ok_bind, ← h5]
    rfl

/-- The pieces for the stored files. -/
def storedPieces (files : List (Str × Bytes)) : List Piece := files.map fun x => .stored x.1 x.2

theorem writeStored {fs : FS} {stored : List (Str × Path)} : ∀ {bytes : Bytes}, storeAll fs stored = .ok bytes →
    ∃ files : List (Str × Bytes), files.map (·.1) = stored.map (·.1) ∧
      files.map (fun x => some x.2) = stored.map (fun x => fs x.2) ∧
      writePieces (storedPieces files) = .ok bytes := by
  induction stored with
  | nil => intro bytes h; exact ⟨[], rfl, rfl, h⟩
  | cons x t ih =>
    intro bytes h
    obtain ⟨name, p⟩ := x
    rw [storeAll] at h
    cases hf : fs p with
    | none => rw [hf] at h; simp at h
    | some data =>
      rw [hf] at h
      simp only [bind_eq_ok, pure_eq_ok, Except.ok.injEq] at h
      obtain ⟨hd, h1, more, h2, h3⟩ := h
      obtain ⟨files, f1, f2, f3⟩ := ih h2
      refine ⟨(name, data) :: files, by simp [f1], by simp [f2, hf], ?_⟩
      unfold storedPieces at f3 ⊢
      rw [List.map_cons, writePieces]
      show (mkStored name data.length >>= _) = _
      rw [h1, ok_bind, f3, ok_bind, ← h3]
      rfl

theorem osoPiece_pieces {dig : Nat → Bool} {fs : FS} {fuel : Nat} {rar : Path} {name : Str} {bytes : Bytes}
    (h : osoPiece dig fs fuel rar name = .ok bytes) :
    ∃ ps, (∀ p ∈ ps, ∃ s h n, p = Piece.oso s h n) ∧ writePieces ps = .ok bytes := by
  unfold osoPiece at h
  cases hr : osoHashFrom dig fs fuel rar name with
  | error e =>
    rw [hr] at h
    simp only [error_bind] at h
    cases e <;> simp at h
    all_goals exact ⟨[], by simp, by rw [h]; rfl⟩
  | ok x =>
    obtain ⟨hs, size⟩ := x
    rw [hr, ok_bind] at h
    dsimp only at h
    cases hm : mkOso size (basename name) (intHex hs) with
    | error e =>
      rw [hm] at h
      cases e <;> simp at h
      all_goals exact ⟨[], by simp, by rw [h]; rfl⟩
    | ok raw =>
      rw [hm] at h
      simp only [Except.ok.injEq] at h
      subst h
      refine ⟨[.oso size (intHex hs) (basename name)], by simp, ?_⟩
      simp only [writePieces, Piece.raw, hm, ok_bind, pure_eq_ok, Piece.data, List.append_nil]

theorem osoPieces_pieces {dig : Nat → Bool} {lower : Str → Str} {fs : FS} {fuel : Nat} {dict : List (Str × Path)} : ∀ {bytes : Bytes},
    osoPieces dig lower fs fuel dict = .ok bytes →
    ∃ ps, (∀ p ∈ ps, ∃ s h n, p = Piece.oso s h n) ∧ writePieces ps = .ok bytes := by
  induction dict with
  | nil => intro bytes h; exact ⟨[], by simp, h⟩
  | cons x t ih =>
    intro bytes h
    obtain ⟨name, rar⟩ := x
    rw [osoPieces] at h
    split at h
    · simp only [bind_eq_ok, pure_eq_ok, Except.ok.injEq] at h
      obtain ⟨a, h1, more, h2, h3⟩ := h
      obtain ⟨ps, p1, p2⟩ := osoPiece_pieces h1
      obtain ⟨qs, q1, q2⟩ := ih h2
      refine ⟨ps ++ qs, ?_, by rw [writePieces_append _ _ p2 q2, h3]⟩
      intro p hp
      rcases List.mem_append.mp hp with hp | hp
      · exact p1 p hp
      · exact q1 p hp
    · exact ih h

/-- What `create_srr` writes: the header, the stored files, the volumes and OSO hashes. -/
theorem create_pieces_full {dig : Nat → Bool} {lower : Str → Str} {fuel : Nat} {fs : FS} {app : Str}
    {stored : List (Str × Path)} {vols : List (RarIn × Bytes)} {compressed oso : Bool} {srr : Bytes}
    (h : createSrr dig lower fuel fs app stored (vols.map (·.1)) compressed oso = .ok srr)
    (hv : ∀ v ∈ vols, fs v.1.exact = some v.2 ∧ GoodVolume v.2) :
    ∃ (files : List (Str × Bytes)) (osos : List Piece),
      files.map (·.1) = stored.map (·.1) ∧
      files.map (fun x => some x.2) = stored.map (fun x => fs x.2) ∧
      (∀ p ∈ osos, ∃ s h n, p = Piece.oso s h n) ∧ (oso = false → osos = []) ∧ (vols = [] → osos = []) ∧
      (∃ v dict o, createVolumes fs compressed [] (vols.map (·.1)) = .ok (v, dict) ∧
        (if oso then osoPieces dig lower fs fuel dict else .ok [] : Res Bytes) = .ok o ∧
        writePieces (volumesPieces vols ++ osos) = .ok (v ++ o)) ∧
      writeSrr app (storedPieces files ++ (volumesPieces vols ++ osos)) = .ok srr := by
  unfold createSrr at h
  simp only [bind_eq_ok, pure_eq_ok, Except.ok.injEq] at h
  obtain ⟨hd, h1, s, h2, x, h3, o, h4, h5⟩ := h
  obtain ⟨files, f1, f2, f3⟩ := writeStored h2
  have hw := writeVolumes hv (oso := []) (oso' := x.2) (bytes := x.1) h3
  obtain ⟨osos, o1, o2, o3, o4⟩ : ∃ ps, (∀ p ∈ ps, ∃ s h n, p = Piece.oso s h n) ∧ writePieces ps = .ok o ∧ (oso = false → ps = []) ∧
      (vols = [] → ps = []) := by
    cases oso with
    | false =>
      simp at h4
      exact ⟨[], by simp, by rw [h4]; rfl, fun _ => rfl, fun _ => rfl⟩
    | true =>
      simp only [if_true] at h4
      by_cases hn : vols = []
      · subst hn
        simp only [List.map_nil, createVolumes, Except.ok.injEq] at h3
        rw [← h3, osoPieces, Except.ok.injEq] at h4
        exact ⟨[], by simp, by rw [← h4]; rfl, by simp, fun _ => rfl⟩
      · obtain ⟨ps, p1, p2⟩ := osoPieces_pieces h4
        exact ⟨ps, p1, p2, by simp, fun h => absurd h hn⟩
  refine ⟨files, osos, f1, f2, o1, o3, o4, ⟨x.1, x.2, o, h3, h4, writePieces_append _ _ hw o2⟩, ?_⟩
  unfold writeSrr
  rw [h1, ok_bind, writePieces_append _ _ f3 (writePieces_append _ _ hw o2), ok_bind, ← h5]
  rfl

theorem create_pieces {dig : Nat → Bool} {lower : Str → Str} {fuel : Nat} {fs : FS} {app : Str}
    {stored : List (Str × Path)} {vols : List (RarIn × Bytes)} {compressed oso : Bool} {srr : Bytes}
    (h : createSrr dig lower fuel fs app stored (vols.map (·.1)) compressed oso = .ok srr)
    (hv : ∀ v ∈ vols, fs v.1.exact = some v.2 ∧ GoodVolume v.2) :
    ∃ (files : List (Str × Bytes)) (osos : List Piece),
      files.map (·.1) = stored.map (·.1) ∧
      files.map (fun x => some x.2) = stored.map (fun x => fs x.2) ∧
      (∀ p ∈ osos, ∃ s h n, p = Piece.oso s h n) ∧ (oso = false → osos = []) ∧
      writeSrr app (storedPieces files ++ (volumesPieces vols ++ osos)) = .ok srr := by
  obtain ⟨files, osos, f1, f2, f3, f4, _, _, f5⟩ := create_pieces_full h hv
  exact ⟨files, osos, f1, f2, f3, f4, f5⟩

end Rescene.Props
