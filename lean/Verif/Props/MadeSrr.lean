import Verif.Spec.MadeSrr
import Verif.Props.EditedCreated
import Verif.Props.Merge
/-
C113: any history of creating, editing and merging SRR files.
-/
namespace Rescene.Props
open Rescene Rescene.Spec

/-- The volume is accepted when an SRR is created. -/
def Accepted (v : RarIn × Bytes) : Prop :=
  ∃ hdr blocks, mkRarFile v.1.name = .ok hdr ∧ readAll v.2 = .ok blocks ∧ ∀ dict, ∃ x, createBlocks true v.1.rar dict blocks = .ok x

theorem createBlock_flag {c : Bool} {rar : Path} {d d' : List (Str × Path)} {b : Block} {x : List (Str × Path)}
    (h : createBlock c rar d b = .ok x) : ∃ y, createBlock true rar d' b = .ok y := by
  unfold createBlock at h ⊢
  split at h
  · rename_i hb
    rw [if_pos hb]
    split at h
    · rename_i f hk
      try rw [hk]
      try dsimp only
      split at h
      · rename_i hm
        rw [if_pos hm, if_pos rfl]
        exact ⟨_, rfl⟩
      · rename_i hm
        rw [if_neg hm]
        simp only [bind_eq_ok] at h
        obtain ⟨n, hn, _⟩ := h
        rw [hn]
        exact ⟨_, rfl⟩
    · simp at h
  · rename_i hb
    rw [if_neg hb]
    simp only [bind_eq_ok] at h
    obtain ⟨r, hr, h⟩ := h
    rw [hr, ok_bind]
    cases r with
    | true =>
      simp only [if_true, bind_eq_ok] at h
      obtain ⟨y, hy, _⟩ := h
      rw [if_pos rfl, hy]
      exact ⟨_, rfl⟩
    | false => exact ⟨_, rfl⟩

theorem createBlocks_any {c : Bool} {rar : Path} {bs : List Block} : ∀ {d : List (Str × Path)} {x : Bytes × List (Str × Path)},
    createBlocks c rar d bs = .ok x → ∀ d', ∃ y, createBlocks true rar d' bs = .ok y := by
  induction bs with
  | nil => intro d x _ d'; exact ⟨_, rfl⟩
  | cons b t ih =>
    intro d x h d'
    rw [createBlocks] at h
    simp only [bind_eq_ok] at h
    obtain ⟨o, h1, z, h2, _⟩ := h
    obtain ⟨y, hy⟩ := createBlock_flag (d' := d') h1
    obtain ⟨w, hw⟩ := ih h2 y
    rw [createBlocks, hy, ok_bind, hw]
    exact ⟨_, rfl⟩

theorem created_accepted {fs : FS} {c : Bool} {vols : List (RarIn × Bytes)} : ∀ {d : List (Str × Path)} {x : Bytes × List (Str × Path)},
    createVolumes fs c d (vols.map (·.1)) = .ok x → (∀ v ∈ vols, fs v.1.exact = some v.2) → ∀ v ∈ vols, Accepted v := by
  induction vols with
  | nil => simp
  | cons v t ih =>
    intro d x h hf
    rw [List.map_cons, createVolumes, hf v (by simp)] at h
    simp only [bind_eq_ok] at h
    obtain ⟨hdr, h1, blocks, h2, y, h3, z, h4, _⟩ := h
    intro w hw
    rcases List.mem_cons.mp hw with rfl | hw
    · exact ⟨hdr, blocks, h1, h2, createBlocks_any h3⟩
    · exact ih (d := y.2) h4 (fun v hv => hf v (by simp [hv])) w hw

theorem accepted_created {fs : FS} {vols : List (RarIn × Bytes)} (ha : ∀ v ∈ vols, Accepted v) (hf : ∀ v ∈ vols, fs v.1.exact = some v.2) :
    ∀ d, ∃ bytes d', createVolumes fs true d (vols.map (·.1)) = .ok (bytes, d') := by
  induction vols with
  | nil => intro d; exact ⟨_, _, rfl⟩
  | cons v t ih =>
    intro d
    obtain ⟨hdr, blocks, h1, h2, h3⟩ := ha v (by simp)
    obtain ⟨y, hy⟩ := h3 d
    obtain ⟨b, d', hb⟩ := ih (fun v hv => ha v (by simp [hv])) (fun v hv => hf v (by simp [hv])) y.2
    rw [List.map_cons, createVolumes, hf v (by simp)]
    dsimp only
    rw [h1, ok_bind, h2, ok_bind, hy, ok_bind, hb]
    exact ⟨_, _, rfl⟩

theorem volumes_header {vols : List (RarIn × Bytes)} {osos : List Piece} {R : List Entry} (hg : ∀ v ∈ vols, GoodVolume v.2)
    (f3 : ∀ p ∈ osos, ∃ s h n, p = Piece.oso s h n)
    (m2 : R.map entryRow = (volumesPieces vols ++ osos).map Piece.row) : ∀ e ∈ R, e.btype ≠ 0x69 := by
  have hin := rarPiecesOk_in (pieces_ok (files := []) hg f3)
  intro e he
  have : entryRow e ∈ (volumesPieces vols ++ osos).map Piece.row := m2 ▸ List.mem_map_of_mem he
  obtain ⟨p, hpm, hq⟩ := List.mem_map.1 this
  unfold entryRow Piece.row at hq
  simp only [Prod.mk.injEq] at hq
  rw [← hq.1]
  cases p with
  | stored _ _ => exact (by decide : (0x6A : Nat) ≠ 0x69)
  | rarFile _ => exact (by decide : (0x71 : Nat) ≠ 0x69)
  | oso _ _ _ => exact (by decide : (0x6B : Nat) ≠ 0x69)
  | padding _ => exact (by decide : (0x6C : Nat) ≠ 0x69)
  | rar b =>
    have := (hin b (by unfold storedPieces; exact hpm)).2
    show b.btype ≠ 0x69
    omega

/-- Volumes, each group of them followed by OSO hashes. -/
abbrev Groups := List (List (RarIn × Bytes) × List Piece)

def Groups.body (gs : Groups) : List Piece := gs.flatMap fun g => volumesPieces g.1 ++ g.2

structure Groups.Good (gs : Groups) : Prop where
  vols : ∀ g ∈ gs, ∀ v ∈ g.1, GoodVolume v.2
  osos : ∀ g ∈ gs, ∀ p ∈ g.2, ∃ s h n, p = Piece.oso s h n
  empty : ∀ g ∈ gs, g.1 = [] → g.2 = []

theorem Groups.Good.tail {g : List (RarIn × Bytes) × List Piece} {gs : Groups} (h : Groups.Good (g :: gs)) : Groups.Good gs :=
  ⟨fun x hx => h.vols x (List.mem_cons_of_mem _ hx), fun x hx => h.osos x (List.mem_cons_of_mem _ hx),
    fun x hx => h.empty x (List.mem_cons_of_mem _ hx)⟩

theorem rarPiecesOk_append {ps qs : List Piece} (hp : RarPiecesOk ps) (hq : RarPiecesOk qs) : RarPiecesOk (ps ++ qs) := by
  intro l b r h
  rcases List.append_eq_append_iff.mp h with ⟨l', e1, e2⟩ | ⟨l', e1, e2⟩
  · obtain ⟨h1, h2, h3⟩ := hq l' b r e2
    exact ⟨h1, h2, fun hr => let ⟨n, hn⟩ := h3 hr; ⟨n, by rw [e1]; exact List.mem_append_right _ hn⟩⟩
  · cases l' with
    | nil =>
      obtain ⟨h1, h2, h3⟩ := hq [] b r e2.symm
      exact ⟨h1, h2, fun hr => let ⟨n, hn⟩ := h3 hr; by simp at hn⟩
    | cons x l' =>
      simp only [List.cons_append, List.cons.injEq] at e2
      obtain ⟨rfl, _⟩ := e2
      exact hp l b l' e1

theorem body_ok {files : List (Str × Bytes)} {gs : Groups} (h : gs.Good) : RarPiecesOk (storedPieces files ++ gs.body) := by
  have h1 := pieces_ok (files := files) (vols := []) (osos := []) (by simp) (by simp)
  rw [List.append_nil] at h1
  refine rarPiecesOk_append (by simpa [volumesPieces] using h1) ?_
  induction gs with
  | nil => intro l b r h; simp [Groups.body] at h
  | cons g t ih =>
    unfold Groups.body
    rw [List.flatMap_cons]
    exact rarPiecesOk_append (pieces_ok (files := []) (h.vols g (by simp)) (h.osos g (by simp))) (ih h.tail)

theorem body_entries {gs : Groups} : ∀ {R : List Entry}, gs.Good → R.map entryRow = gs.body.map Piece.row →
    (∀ e ∈ R, e.btype ≠ 0x6A ∧ e.btype ≠ 0x69) ∧ ∀ e ∈ R.head?, e.btype = 0x71 := by
  induction gs with
  | nil =>
    intro R _ h
    have : R = [] := by simpa [Groups.body] using h
    simp [this]
  | cons g t ih =>
    intro R hg h
    unfold Groups.body at h
    rw [List.flatMap_cons, List.map_append] at h
    obtain ⟨R1, R2, rfl, m1, m2⟩ := split_map h
    obtain ⟨a1, a2⟩ := rest_entries (hg.vols g (by simp)) (hg.osos g (by simp)) (hg.empty g (by simp)) m1
    have a3 := volumes_header (hg.vols g (by simp)) (hg.osos g (by simp)) m1
    obtain ⟨b1, b2⟩ := ih hg.tail m2
    refine ⟨?_, ?_⟩
    · intro e he
      rcases List.mem_append.mp he with he | he
      · exact ⟨a1 e he, a3 e he⟩
      · exact b1 e he
    · intro e he
      cases R1 with
      | nil => exact b2 e he
      | cons x R1 => exact a2 e he

/-- The entries of an SRR with these files and volumes. -/
theorem written_shape {app : Str} {files : List (Str × Bytes)} {gs : Groups} {srr : Bytes}
    (hw : writeSrr app (storedPieces files ++ gs.body) = .ok srr) (hg : gs.Good) (h20 : 20 ≤ srr.length) :
    ∃ h S R, mkSrrHeader app = .ok h ∧ Contents srr (⟨0x69, .srrHeader app, h, []⟩ :: (S ++ R)) ∧
      Shape ⟨0x69, .srrHeader app, h, []⟩ S R ∧ S.filterMap storedFile = files ∧ R.map entryRow = gs.body.map Piece.row ∧
      ∀ e ∈ R, e.btype ≠ 0x69 := by
  obtain ⟨h, es, k1, k2, k3⟩ := written_contents hw h20 (body_ok hg)
  rw [List.map_append] at k3
  obtain ⟨S, R, rfl, m1, m2⟩ := split_map k3
  obtain ⟨q1, q2⟩ := pieces_canon m1
  obtain ⟨r1, r2⟩ := body_entries hg m2
  exact ⟨h, S, R, k1, k2, ⟨rfl, q1, fun e he => (r1 e he).1, r2⟩, q2, m2, fun e he => (r1 e he).2⟩

theorem shape_parts {app : Str} {h : Bytes} {S R : List Entry} (hs : Shape ⟨0x69, .srrHeader app, h, []⟩ S R)
    (hr : ∀ e ∈ R, e.btype ≠ 0x69) :
    storedPart (⟨0x69, .srrHeader app, h, []⟩ :: (S ++ R)) = S ∧ otherPart (⟨0x69, .srrHeader app, h, []⟩ :: (S ++ R)) = R ∧
      appNames (⟨0x69, .srrHeader app, h, []⟩ :: (S ++ R)) = [app] := by
  refine ⟨?_, ?_, ?_⟩
  · unfold storedPart
    rw [List.filter_cons_of_neg (by simp), List.filter_append, List.filter_eq_self.mpr (fun e he => by simp [canon_type (hs.stored e he)]),
      List.filter_eq_nil_iff.mpr (fun e he => by simp [hs.other e he]), List.append_nil]
  · unfold otherPart
    rw [List.filter_cons_of_neg (by simp), List.filter_append, List.filter_eq_nil_iff.mpr (fun e he => by simp [canon_type (hs.stored e he)]),
      List.filter_eq_self.mpr (fun e he => by simp [hs.other e he, hr e he]), List.nil_append]
  · unfold appNames
    rw [List.filterMap_cons_some (b := app) (by simp)]
    congr 1
    rw [List.filterMap_eq_nil_iff]
    intro e he
    have : e.btype ≠ 0x69 := by
      rcases List.mem_append.mp he with he | he
      · rw [canon_type (hs.stored e he)]; decide
      · exact hr e he
    cases e.kind <;> simp [this]

theorem merged_long {inputs : List Bytes} : ∀ {app : Option Str} {x : Option Str × List (Bytes × Bytes) × List Bytes},
    mergeGatherAll inputs app = .ok x → ∀ d ∈ inputs, 20 ≤ d.length := by
  induction inputs with
  | nil => simp
  | cons d t ih =>
    intro app x h
    rw [mergeGatherAll] at h
    simp only [bind_eq_ok] at h
    obtain ⟨blocks, h1, y, h2, z, h3, _⟩ := h
    intro w hw
    rcases List.mem_cons.mp hw with rfl | hw
    · refine Decidable.byContradiction fun hl => ?_
      have ho : openReader w = .error .valueError := by unfold openReader; rw [if_pos (by omega)]
      simp [readAll, readTrace, ho] at h1
    · exact ih (app := y.1) h3 w hw

theorem volumesPieces_app (vs ws : List (RarIn × Bytes)) : volumesPieces (vs ++ ws) = volumesPieces vs ++ volumesPieces ws := by
  unfold volumesPieces; rw [List.flatMap_append]

theorem body_plain {gs : Groups} (h : ∀ g ∈ gs, g.2 = []) : gs.body = volumesPieces (gs.flatMap (·.1)) := by
  induction gs with
  | nil => rfl
  | cons g t ih =>
    unfold Groups.body
    rw [List.flatMap_cons, List.flatMap_cons, volumesPieces_app, h g (by simp), List.append_nil]
    congr 1
    exact ih (fun g hg => h g (by simp [hg]))

/-- An SRR that is made of `k`: its files, then groups of its volumes and OSO hashes. -/
def WrittenAs (oso : Bool) (k : Kept) (srr : Bytes) : Prop :=
  ∃ gs : Groups, gs.Good ∧ gs.flatMap (·.1) = k.vols ∧ (oso = false → ∀ g ∈ gs, g.2 = []) ∧
    writeSrr k.app (storedPieces k.files ++ gs.body) = .ok srr

/-- What is written is one SRR of all files and volumes. -/
theorem history_groups {oso : Bool} {k : Kept} {srr : Bytes} (h : MadeSrr oso k srr) : WrittenAs oso k srr ∧ ∀ v ∈ k.vols, Accepted v := by
  induction h with
  | @create dig lower fuel fs app stored vols compressed hashes srr hoso h hv =>
    obtain ⟨hd, s, v, dict, o, _, c1, _, g1, g2, _, hw, he⟩ := edited_pieces h hv (fs := fun _ => some srr) (p := []) rfl (.none _) rfl
    obtain ⟨_, osos, _, _, f3, f4, f5, ⟨v', dict', o', e1, e2, e3⟩, _⟩ := create_pieces_full h hv
    rw [g1] at e1
    cases e1
    rw [g2] at e2
    cases e2
    refine ⟨⟨[(vols, osos)], ⟨?_, ?_, ?_⟩, by simp, ?_, ?_⟩, created_accepted g1 (fun v hv' => (hv v hv').1)⟩
    · intro g hg w hw
      simp only [List.mem_singleton] at hg
      subst hg
      exact (hv w hw).2
    · intro g hg
      simp only [List.mem_singleton] at hg
      subst hg
      exact f3
    · intro g hg
      simp only [List.mem_singleton] at hg
      subst hg
      exact f5
    · intro ho g hg
      simp only [List.mem_singleton] at hg
      subst hg
      exact f4 (hoso ho)
    · have hb : Groups.body [(vols, osos)] = volumesPieces vols ++ osos := by simp [Groups.body]
      unfold writeSrr
      rw [c1, ok_bind, hb, writePieces_append _ _ (by simpa [Stored.all] using hw) e3, ok_bind, he]
      rfl
  | @edit k srr new p es fs fs' h hs he hn ih =>
    obtain ⟨⟨gs, hg, hvs, hno, hw⟩, hacc⟩ := ih
    refine ⟨⟨gs, hg, hvs, hno, ?_⟩, hacc⟩
    by_cases h20 : 20 ≤ srr.length
    · obtain ⟨hd, S, R, c1, hc, hsh, hf, m2, _⟩ := written_shape hw hg h20
      obtain ⟨S', t1, t2, t3⟩ := edits_shape he hs hsh (contents_bytes hc).symm (fun _ => hc) hn
      rw [hf] at t3
      have h1 := entries_write (canon_row t1.stored)
      have h2 := entries_write m2
      dsimp only
      rw [t3]
      unfold Stored.all writeSrr
      rw [List.append_nil, c1, ok_bind, writePieces_append _ _ h1 h2, ok_bind, t2, entriesBytes_cons]
      unfold entriesBytes
      rw [List.map_append, List.flatten_append]
      simp [pure_eq_ok]
    · cases he with
      | none =>
        rw [hs] at hn
        cases hn
        simpa [Stored.all] using hw
      | edit e hne ht hs1 hr more =>
        rw [hs] at hs1
        cases hs1
        exact absurd hr (fun hr => edit_short (by omega) hr)
  | @merge inputs app new h hm ih =>
    refine ⟨?_, ?_⟩
    · have hlong : ∀ d ∈ inputs.map (·.2), 20 ≤ d.length := by
        have hm' := hm
        unfold mergeSrrs at hm'
        rw [bind_eq_ok] at hm'
        obtain ⟨x, hx, _⟩ := hm'
        exact merged_long hx
      have key : ∀ l : List (Kept × Bytes), (∀ i ∈ l, i ∈ inputs) → ∃ (ins : List (Bytes × List Entry)) (gs : Groups),
          ins.map (·.1) = l.map (·.2) ∧ (∀ i ∈ ins, Contents i.1 i.2) ∧ ins.flatMap (fun i => appNames i.2) = l.map (·.1.app) ∧
          (ins.flatMap (fun i => storedPart i.2)).map entryRow = (storedPieces (l.flatMap (·.1.files))).map Piece.row ∧
          (ins.flatMap (fun i => otherPart i.2)).map entryRow = gs.body.map Piece.row ∧
          gs.Good ∧ gs.flatMap (·.1) = l.flatMap (·.1.vols) ∧ (oso = false → ∀ g ∈ gs, g.2 = []) := by
        intro l
        induction l with
        | nil => intro _; exact ⟨[], [], rfl, by simp, rfl, rfl, rfl, ⟨by simp, by simp, by simp⟩, rfl, by simp⟩
        | cons i t iht =>
          intro hl
          obtain ⟨ins, gs2, j1, j2, j3, j4, j5, j6, j7, j8⟩ := iht (fun i hi => hl i (by simp [hi]))
          obtain ⟨⟨gs1, hg, hvs, hno, hw⟩, _⟩ := ih i (hl i (by simp))
          obtain ⟨hd, S, R, c1, hc, hsh, hf, m2, hr⟩ := written_shape hw hg (hlong i.2 (List.mem_map_of_mem (hl i (by simp))))
          obtain ⟨p1, p2, p3⟩ := shape_parts hsh hr
          refine ⟨(i.2, ⟨0x69, .srrHeader i.1.app, hd, []⟩ :: (S ++ R)) :: ins, gs1 ++ gs2, by simp [j1], ?_, ?_, ?_, ?_, ⟨?_, ?_, ?_⟩, ?_, ?_⟩
          · intro y hy
            rcases List.mem_cons.mp hy with rfl | hy
            · exact hc
            · exact j2 y hy
          · rw [List.flatMap_cons, p3, j3]; rfl
          · rw [List.flatMap_cons, p1, List.map_append, j4, canon_row hsh.stored, hf, List.flatMap_cons]
            simp [storedPieces]
          · rw [List.flatMap_cons, p2, List.map_append, j5, m2]
            unfold Groups.body
            rw [List.flatMap_append, List.map_append]
          · intro g hgm
            rcases List.mem_append.mp hgm with hgm | hgm
            · exact hg.vols g hgm
            · exact j6.vols g hgm
          · intro g hgm
            rcases List.mem_append.mp hgm with hgm | hgm
            · exact hg.osos g hgm
            · exact j6.osos g hgm
          · intro g hgm
            rcases List.mem_append.mp hgm with hgm | hgm
            · exact hg.empty g hgm
            · exact j6.empty g hgm
          · rw [List.flatMap_append, hvs, j7, List.flatMap_cons]
          · intro ho g hgm
            rcases List.mem_append.mp hgm with hgm | hgm
            · exact hno ho g hgm
            · exact j8 ho g hgm
      obtain ⟨ins, gs, j1, j2, j3, j4, j5, j6, j7, j8⟩ := key inputs (fun _ h => h)
      refine ⟨gs, j6, j7, j8, ?_⟩
      obtain ⟨hall, _⟩ := mergeGatherAll_items (app := app) j2
      rw [j1] at hall
      unfold mergeSrrs at hm
      rw [hall, ok_bind] at hm
      dsimp only at hm
      rw [j3] at hm
      have hpick : ∀ x, pickName app (inputs.map (·.1.app)) = some x → x = firstName (app.getD [] :: inputs.map (·.1.app)) := by
        intro x hx
        cases app with
        | some a => rw [pickName_some] at hx; exact (Option.some.inj hx).symm
        | none =>
          cases inputs with
          | nil => simp [pickName] at hx
          | cons i t =>
            rw [List.map_cons] at hx ⊢
            unfold pickName at hx
            rw [if_pos (Or.inl rfl), pickName_some] at hx
            exact (Option.some.inj hx).symm
      cases hp : pickName app (inputs.map (·.1.app)) with
      | none => rw [hp] at hm; simp at hm
      | some x =>
        rw [hp] at hm
        simp only [bind_eq_ok, pure_eq_ok, Except.ok.injEq] at hm
        obtain ⟨hd, hh, hm⟩ := hm
        rw [hpick x hp] at hh
        have w1 := entries_write j4
        have w2 := entries_write j5
        unfold writeSrr
        dsimp only
        rw [hh, ok_bind, writePieces_append _ _ w1 w2, ok_bind, ← hm]
        have hno : entriesBytes (ins.flatMap (fun i => otherPart i.2)) = ((ins.flatMap (fun i => otherPart i.2)).map (fun e => e.raw)).flatten := by
          unfold entriesBytes
          congr 1
          refine List.map_congr_left fun e he => ?_
          obtain ⟨i, hi, he⟩ := List.mem_flatMap.mp he
          have hd := (j2 i hi).2
          obtain ⟨tr, _, _, _, hd⟩ := hd
          unfold otherPart at he
          obtain ⟨h1, h2⟩ := List.mem_filter.mp he
          have := hd e h1
          rw [if_neg (by intro hb; simp [hb] at h2)] at this
          rw [this, List.append_nil]
        rw [hno]
        unfold entriesBytes
        rw [List.map_map]
        rfl
    · intro v hv
      obtain ⟨i, hi, hv⟩ := List.mem_flatMap.mp hv
      exact (ih i hi).2 v hv

theorem history_good {oso : Bool} {k : Kept} {srr : Bytes} (h : MadeSrr oso k srr) : ∀ v ∈ k.vols, GoodVolume v.2 := by
  obtain ⟨⟨gs, hg, hvs, _⟩, _⟩ := history_groups h
  intro v hv
  rw [← hvs] at hv
  obtain ⟨g, hgm, hv⟩ := List.mem_flatMap.mp hv
  exact hg.vols g hgm v hv

/-- C113: without OSO hashes, what is written is one SRR of all files and volumes. -/
theorem history_written {k : Kept} {srr : Bytes} (h : MadeSrr false k srr) :
    writeSrr k.app (storedPieces k.files ++ volumesPieces k.vols) = .ok srr := by
  obtain ⟨⟨gs, hg, hvs, hno, hw⟩, _⟩ := history_groups h
  rw [body_plain (hno rfl), hvs] at hw
  exact hw

/-- C113: the result of any history of creating, editing and merging SRR files without OSO hashes is byte for byte the SRR that is
created at once from the resulting files and all the volumes. -/
theorem history_as_created {k : Kept} {srr : Bytes} (h : MadeSrr false k srr) {dig : Nat → Bool} {lower : Str → Str} {fuel : Nat} {fs : FS}
    {stored : List (Str × Path)} (hv : ∀ v ∈ k.vols, fs v.1.exact = some v.2) (hfiles : filesOf fs stored = k.files)
    (hall : ∀ x ∈ stored, (fs x.2).isSome = true) :
    createSrr dig lower fuel fs k.app stored (k.vols.map (·.1)) true false = .ok srr := by
  have hw := history_written h
  have hacc := (history_groups h).2
  obtain ⟨b, d', hb⟩ := accepted_created hacc hv []
  have hvw := writeVolumes (fun v hv' => ⟨hv v hv', history_good h v hv'⟩) hb
  unfold writeSrr at hw
  simp only [bind_eq_ok, pure_eq_ok, Except.ok.injEq] at hw
  obtain ⟨hd, h1, x, h2, h3⟩ := hw
  have hs : ∃ s, writePieces (storedPieces k.files) = .ok s ∧ x = s ++ b := by
    clear h3
    revert x
    generalize storedPieces k.files = ps
    intro x h2
    induction ps generalizing x with
    | nil =>
      rw [List.nil_append, hvw] at h2
      exact ⟨[], rfl, (Except.ok.inj h2).symm⟩
    | cons p ps ih =>
      simp only [List.cons_append, writePieces, bind_eq_ok, pure_eq_ok, Except.ok.injEq] at h2
      obtain ⟨raw, e1, y, k2, k3⟩ := h2
      obtain ⟨s, hs, hy⟩ := ih y k2
      refine ⟨raw ++ (p.data ++ s), ?_, by rw [← k3, hy]; simp⟩
      rw [writePieces, e1, ok_bind, hs]
      rfl
  obtain ⟨s, hs, rfl⟩ := hs
  unfold createSrr
  rw [h1, ok_bind, storeAll_files hall, hfiles, hs, ok_bind, hb, ok_bind, ← h3]
  simp

/-- C113: the order of the steps does not matter: two histories with the same files, volumes and application name give the same SRR. -/
theorem history_unique {k : Kept} {srr srr' : Bytes} (h : MadeSrr false k srr) (h' : MadeSrr false k srr') : srr = srr' :=
  Except.ok.inj ((history_written h).symm.trans (history_written h'))

/-- OSO hashes do nothing, wherever they are. -/
theorem recLoop_drop {a : RecArgs} (bs : List Block) : ∀ s, recLoop a s bs = recLoop a s (bs.filter fun b => b.btype != 0x6B) := by
  induction bs with
  | nil => intro s; rfl
  | cons b t ih =>
    intro s
    by_cases hb : b.btype = 0x6B
    · have : recBlock a s b = .ok (s, true) := by
        unfold recBlock recOther isRecBlock
        rw [hb]
        simp
      rw [recLoop, this, ok_bind, List.filter_cons_of_neg (by simp [hb])]
      exact ih s
    · rw [List.filter_cons_of_pos (by simp [hb]), recLoop, recLoop]
      congr 1
      funext ⟨s1, go⟩
      cases go with
      | true => exact ih s1
      | false => rfl

def isOso : Piece → Bool
  | .oso _ _ _ => true
  | _ => false

theorem pieces_drop {srr : Bytes} {ps : List Piece} : ∀ {bs : List Block}, RarPiecesIn ps → PiecesAre srr ps bs →
    PiecesAre srr (ps.filter fun p => !isOso p) (bs.filter fun b => b.btype != 0x6B) := by
  induction ps with
  | nil =>
    intro bs _ h
    cases bs with
    | nil => trivial
    | cons _ _ => exact h.elim
  | cons p t ih =>
    intro bs hin h
    cases bs with
    | nil => exact h.elim
    | cons b bs =>
      obtain ⟨h1, h2⟩ := h
      have h3 := ih (fun b hb => hin b (List.mem_cons_of_mem _ hb)) h2
      have hb : (b.btype != 0x6B) = !isOso p := by
        cases p with
        | stored _ _ => simp [isOso, h1.1]
        | rarFile _ => simp [isOso, h1.1]
        | oso _ _ _ => simp [isOso, h1.1]
        | padding _ => simp [isOso, h1.1]
        | rar c =>
          obtain ⟨pos, rfl⟩ := h1
          have := (hin c (by simp)).2
          simp only [isOso, Bool.not_false, bne_iff_ne]
          show c.btype ≠ 0x6B
          omega
      by_cases hp : isOso p = true
      · rw [List.filter_cons_of_neg (by simp [hp]), List.filter_cons_of_neg (by simp [hb, hp])]
        exact h3
      · rw [List.filter_cons_of_pos (by simp [hp]), List.filter_cons_of_pos (by simp [hb, hp])]
        exact ⟨h1, h3⟩

theorem volumes_no_oso (vols : List (RarIn × Bytes)) : ∀ p ∈ volumesPieces vols, isOso p = false := by
  intro p hp
  unfold volumesPieces at hp
  obtain ⟨v, _, hp⟩ := List.mem_flatMap.1 hp
  rcases List.mem_cons.1 hp with rfl | hp
  · rfl
  · unfold volumePieces at hp
    cases htr : readTrace v.2 with
    | error e => rw [htr] at hp; cases hp
    | ok tr =>
      rw [htr] at hp
      unfold tracePieces at hp
      obtain ⟨y, _, hy⟩ := List.mem_map.1 hp
      split at hy <;> cases hy <;> rfl

theorem body_drop {gs : Groups} (h : gs.Good) : gs.body.filter (fun p => !isOso p) = volumesPieces (gs.flatMap (·.1)) := by
  induction gs with
  | nil => rfl
  | cons g t ih =>
    have := ih h.tail
    unfold Groups.body at this ⊢
    rw [List.flatMap_cons, List.flatMap_cons, volumesPieces_app, List.filter_append, List.filter_append, this,
      List.filter_eq_self.mpr (fun p hp => by simp [volumes_no_oso g.1 p hp]),
      List.filter_eq_nil_iff.mpr (fun p hp => by obtain ⟨_, _, _, rfl⟩ := h.osos g (by simp) p hp; simp [isOso]), List.append_nil]

theorem body_length {app : Str} {files : List (Str × Bytes)} {gs : Groups} {srr : Bytes} (h : gs.Good)
    (hw : writeSrr app (storedPieces files ++ gs.body) = .ok srr) (hne : gs.flatMap (·.1) ≠ []) : 20 ≤ srr.length := by
  induction gs with
  | nil => simp at hne
  | cons g t ih =>
    unfold Groups.body at hw
    rw [List.flatMap_cons, List.append_assoc] at hw
    by_cases hg : g.1 = []
    · refine ih h.tail ?_ (by simpa [hg] using hne)
      rw [h.empty g (by simp) hg, hg] at hw
      simpa [volumesPieces, Groups.body] using hw
    · exact srr_length hw hg (h.vols g (by simp))

/-- C113: from the result of any history of creating, editing and merging SRR files, with or without OSO hashes, reconstruction gives all
the volumes back byte for byte, whether the stored files are extracted or not, and reports exactly the wrong checksums. -/
theorem history_reconstruct {oso : Bool} {k : Kept} {srr : Bytes} (h : MadeSrr oso k srr) (hne : k.vols ≠ [])
    {a : RecArgs} {fs : FS} (hsrr : fs a.srr = some srr) (hpart : a.part = []) {ext : List Path}
    (hext : a.extractFiles = true → ∀ x ∈ k.files, ∃ p ∈ ext, opath x.1 a.extractPaths a.outFolder = .ok p ∧ p ≠ a.srr)
    {out : RarIn × Bytes → Path}
    (hout : ∀ v ∈ k.vols, opath v.1.name a.extractPaths a.outFolder = .ok (out v) ∧
      (fs (out v) = none ∧ out v ∉ ext ∨ a.ask (out v) = true))
    (hdiff : (k.vols.map out).Nodup)
    (hsrc : Packs (SourceIs a fs (k.vols.map out ++ ext)) none (k.vols.flatMap fun v => volumeParts v.2)) :
    ∃ fs2 reports, reconstruct a fs = .ok (fs2, reports, true) ∧ (∀ v ∈ k.vols, fs2 (out v) = some v.2) ∧
      (∀ q, q ∉ k.vols.map out → q ∉ ext → fs2 q = fs q) ∧
      reports = if a.skipCrc = true then [] else wrongParts none (k.vols.flatMap fun v => volumeParts v.2) := by
  have hgood := history_good h
  obtain ⟨⟨gs, hg, hvs, _, hw⟩, _⟩ := history_groups h
  obtain ⟨hb, blocks, r1, r2, r3, r4⟩ := written_blocks hw (body_length hg hw (by rw [hvs]; exact hne)) (body_ok hg)
  obtain ⟨b1, b23, rfl, p1, p23⟩ := pieces_append r4
  have p2 := pieces_drop (rarPiecesOk_in (body_ok (files := []) hg)) p23
  rw [show storedPieces [] ++ gs.body = gs.body from rfl, body_drop hg, hvs] at p2
  unfold reconstruct
  rw [hsrr]
  dsimp only
  rw [r1, ok_bind, recLoop]
  have hh : recBlock a { fs := fs } hb = .ok ({ fs := fs }, true) := by
    unfold recBlock
    rw [r2, if_pos rfl, r3]
  rw [hh, ok_bind]
  dsimp only
  rw [if_pos rfl]
  obtain ⟨s1, k1, _, _, _, k5, k0⟩ := rec_stored k.files { fs := fs } b1 b23 ext hext hsrr p1
  rw [k1, recLoop_drop]
  have k2 : s1.rarName = [] := by rw [k0]
  have k3 : s1.srcName = none := by rw [k0]
  have k6 : s1.reports = [] := by rw [k0]
  have hname : ∀ v ∈ k.vols, v.1.name ≠ [] := by
    intro v hv hc
    have := (hout v hv).1
    rw [hc] at this
    have hbad : opath [] a.extractPaths a.outFolder = .error .valueError := by
      unfold opath osFileNameSrr joinpath
      rfl
    rw [hbad] at this
    simp at this
  obtain ⟨s2, cur, j1, j2, j3, j4, j5, j6⟩ := rec_volumes (fs1 := fs) (written := k.vols.map out ++ ext) (srr := srr) (out := out)
    k.vols s1 none _ [] []
    (by
      intro v hv
      obtain ⟨o1, o2⟩ := hout v hv
      refine ⟨hgood v hv, List.mem_append_left _ (List.mem_map_of_mem hv), o1, ?_, ?_, by simp [skipped, hpart], Or.inl hpart⟩
      · rw [k2]; exact hname v hv
      · rcases o2 with ⟨o2, o3⟩ | o2
        · left
          rw [k5 _ (fun _ => o3)]
          exact o2
        · exact Or.inr o2)
    hdiff
    (by
      intro q hq
      exact k5 q (fun _ hc => hq (List.mem_append_right _ hc)))
    (Or.inl k3) p2 (by rw [List.append_nil]; exact hsrc)
  rw [List.append_nil] at j1
  rw [j1, recLoop]
  refine ⟨s2.fs, s2.reports, rfl, j3, ?_, ?_⟩
  · intro q h1 h2
    rw [j4 q h1]
    exact k5 q (fun _ => h2)
  · unfold Told at j6
    split at j6
    · rename_i hc
      rw [j6, k6, if_pos hc]
    · rename_i hc
      rw [(j6 none k3).1, k6, if_neg hc]
      rfl

end Rescene.Props
