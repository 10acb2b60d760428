import Verif.Proof.FvTile
/-! The meshes of a tiling form a patchwork, and the slopes of the ghost cells are those of their sources. -/
namespace Shamrock.Fv
open Amr

section
variable {m : Nat} {blk : Nat → List Box} {pb : Nat → Box} {L : V3 Int} {lab : Nat → List Lab}

theorem mesh_length (p : Nat) : (meshOf blk L lab p).length = (lab p).length := by
  unfold meshOf; rw [List.length_map]

theorem labD_get {p d : Nat} (h : d < (lab p).length * 8) : (lab p)[d / 8]? = some (labD lab p d) := by
  unfold labD
  rw [List.getD_eq_getElem?_getD, List.getElem?_eq_getElem (by omega)]; rfl

theorem labD_mem {p d : Nat} (h : d < (lab p).length * 8) : labD lab p d ∈ lab p := List.mem_of_getElem? (labD_get h)

theorem cellD_mesh {p d : Nat} (h : d < (lab p).length * 8) : cellD (meshOf blk L lab p) d = cellOf (blockAt blk L (labD lab p d)) (d % 8) := by
  unfold cellD meshOf
  rw [List.getD_eq_getElem?_getD, cells_get, List.getElem?_map, labD_get h]; rfl

theorem lab_find {p : Nat} {l : Lab} (h : l ∈ lab p) {j : Nat} (hj : j < 8) :
    8 * (lab p).idxOf l + j < (lab p).length * 8 ∧ labD lab p (8 * (lab p).idxOf l + j) = l ∧ (8 * (lab p).idxOf l + j) % 8 = j := by
  have hi := List.idxOf_lt_length_of_mem h
  refine ⟨by omega, ?_, by omega⟩
  unfold labD
  rw [show (8 * (lab p).idxOf l + j) / 8 = (lab p).idxOf l by omega, List.getD_eq_getElem?_getD, List.getElem?_eq_getElem hi, Option.getD_some]
  exact List.getElem_idxOf hi

theorem lab_unique {p : Nat} (hn : (lab p).Nodup) {d d' : Nat} (h : d < (lab p).length * 8) (h' : d' < (lab p).length * 8) (e : labD lab p d = labD lab p d')
    (e8 : d % 8 = d' % 8) : d = d' := by
  have h1 := labD_get h
  have h2 := labD_get h'
  rw [e] at h1
  obtain ⟨a1, a2⟩ := List.getElem?_eq_some_iff.1 h1
  obtain ⟨b1, b2⟩ := List.getElem?_eq_some_iff.1 h2
  have := (List.Nodup.getElem_inj_iff hn).1 (a2.trans b2.symm)
  omega

theorem own_len (T : Tiling m blk pb L lab) {p : Nat} (hp : p < m) : (blk p).length ≤ (lab p).length := by
  by_contra hc
  have h := T.own p hp (lab p).length (by omega)
  rw [List.getElem?_eq_none (by omega)] at h
  cases h

theorem own_label (T : Tiling m blk pb L lab) {p : Nat} (hp : p < m) {c : Nat} (hc : c < 8 * (blk p).length) : labD lab p c = (p, c / 8, origin) := by
  unfold labD
  rw [List.getD_eq_getElem?_getD, T.own p hp (c / 8) (by omega)]; rfl

theorem src_own (T : Tiling m blk pb L lab) {p : Nat} (hp : p < m) {c : Nat} (hc : c < 8 * (blk p).length) : srcOf lab p c = (p, c) := by
  unfold srcOf
  rw [own_label T hp hc]
  simp only [Prod.mk.injEq, true_and]
  omega

theorem blockAt_own (p i : Nat) : blockAt blk L (p, i, origin) = (blk p).getD i box0 := by
  unfold blockAt
  have : mulV origin L = ⟨0, 0, 0⟩ := by simp [mulV, origin]
  rw [this, shift_zero]

theorem blk_mem {p i : Nat} (h : i < (blk p).length) : (blk p).getD i box0 ∈ blk p := by
  rw [List.getD_eq_getElem?_getD, List.getElem?_eq_getElem h]; exact List.getElem_mem h

theorem blockAt_cube (T : Tiling m blk pb L lab) {l : Lab} (h1 : l.1 < m) (h2 : l.2.1 < (blk l.1).length) : Cube2 (blockAt blk L l) :=
  cube_shift (T.cube l.1 h1 _ (blk_mem h2)) _

/-- Moving a label by a number of tiles. -/
def mvLab (k : V3 Int) (l : Lab) : Lab := (l.1, l.2.1, addV l.2.2 k)

theorem blockAt_mv (k : V3 Int) (l : Lab) : blockAt blk L (mvLab k l) = shiftBox (blockAt blk L l) (mulV k L) := by
  unfold blockAt mvLab
  rw [shift_shift]
  congr 1
  unfold addV mulV
  simp only [V3.mk.injEq]
  refine ⟨?_, ?_, ?_⟩ <;> ring

theorem mv_mv (k k' : V3 Int) (l : Lab) : mvLab k' (mvLab k l) = mvLab (addV k k') l := by
  obtain ⟨a, b, c⟩ := l
  simp [mvLab, addV, add_assoc]

theorem mv_zero (l : Lab) : mvLab origin l = l := by
  obtain ⟨a, b, c⟩ := l
  simp [mvLab, addV, origin]

theorem add_negV (k : V3 Int) : addV k (negV k) = origin ∧ addV (negV k) k = origin := by
  simp [addV, negV, origin]

theorem meets_shift (A B : Box) (s : V3 Int) : Meets (shiftBox A s) (shiftBox B s) ↔ Meets A B := by
  unfold Meets
  simp only [at_shift, add_le_add_iff_right]

theorem meets_mono {A B P : Box} (h : Meets A B) (hw : Within B P) : Meets A P := by
  intro j hj
  have := h j hj; have := hw j hj
  omega

/-- Cells with a common face: their blocks touch. -/
theorem faces_meets {A B : Box} (hA : Cube2 A) (hB : Cube2 B) {dir ia ib : Nat} (hd : dir < 6) (h1 : ia < 8) (h2 : ib < 8)
    (h : Faces dir (cellOf A ia) (cellOf B ib)) : Meets A B := by
  obtain ⟨ka, a0, -, a2, a3⟩ := cube_axis hA
  obtain ⟨kb, b0, -, b2, b3⟩ := cube_axis hB
  obtain ⟨wa, a4, a5⟩ := a3 ia h1
  obtain ⟨wb, b4, b5⟩ := b3 ib h2
  rw [faces_axis hd] at h
  intro j hj
  have := a2 j hj; have := a4 j hj; have := a5 j hj
  have := b2 j hj; have := b4 j hj; have := b5 j hj
  by_cases hX : j = dir / 2
  · rw [← hX] at h
    have h := h.1
    split at h <;> omega
  · have h := h.2 j hj hX
    rw [overlap_iff] at h
    omega

theorem meets_comm {A B : Box} (h : Meets A B) : Meets B A := fun j hj => ⟨(h j hj).2, (h j hj).1⟩

/-- The part of `Meets` that the labels use: if a block touches a labelled block, then moved with it, it touches the box of the patch that owns it. -/
theorem meets_home (T : Tiling m blk pb L lab) {l : Lab} (h1 : l.1 < m) (h2 : l.2.1 < (blk l.1).length) {E : Box} (h : Meets E (blockAt blk L l)) :
    Meets (shiftBox E (mulV (negV l.2.2) L)) (pb l.1) := by
  have h' := (meets_shift _ _ (mulV (negV l.2.2) L)).2 h
  rw [← blockAt_mv] at h'
  have e : mvLab (negV l.2.2) l = (l.1, l.2.1, origin) := by
    unfold mvLab; rw [(add_negV _).1]
  rw [e, blockAt_own] at h'
  exact meets_mono h' (T.inside l.1 h1 _ (blk_mem h2))

theorem mulV_negV (k : V3 Int) : mulV (negV k) L = negV (mulV k L) := by
  simp [mulV, negV]

theorem cellD_src (T : Tiling m blk pb L lab) {p : Nat} (hp : p < m) {d : Nat} (hd : d < (lab p).length * 8) :
    cellD (meshOf blk L lab p) d = shiftBox (cellD (meshOf blk L lab (srcOf lab p d).1) (srcOf lab p d).2) (shOf lab L p d) := by
  obtain ⟨l1, l2, l3⟩ := (T.mem p hp _).1 (labD_mem hd)
  have hl : (srcOf lab p d).2 < 8 * (blk (srcOf lab p d).1).length := by unfold srcOf; dsimp only; omega
  have := own_len T (p := (srcOf lab p d).1) l1
  rw [cellD_mesh hd, cellD_mesh (by omega), own_label T (p := (srcOf lab p d).1) l1 hl]
  rw [blockAt_own]
  have e1 : (srcOf lab p d).2 / 8 = (labD lab p d).2.1 := by unfold srcOf; dsimp only; omega
  have e2 : (srcOf lab p d).2 % 8 = d % 8 := by unfold srcOf; dsimp only; omega
  rw [e1, e2, ← cellOf_shift]
  rfl

theorem tiling_patchwork (T : Tiling m blk pb L lab) (u : Nat → List CellIn)
    (hval : ∀ p < m, ∀ d < (lab p).length * 8, 8 * (blk p).length ≤ d → (∃ dir < 6, ∃ c < 8 * (blk p).length, Faces dir (cellD (meshOf blk L lab p) c) (cellD (meshOf blk L lab p) d)) →
      (u p).getD d cell0 = (u (srcOf lab p d).1).getD (srcOf lab p d).2 cell0) :
    Patchwork m (meshOf blk L lab) u (fun p => 8 * (blk p).length) (srcOf lab) (shOf lab L) := by
  refine ⟨?_, ?_, ?_, ?_⟩
  · intro p hp d hd
    rw [mesh_length] at hd
    obtain ⟨l1, l2, l3⟩ := (T.mem p hp _).1 (labD_mem hd)
    exact ⟨l1, by unfold srcOf; dsimp only; omega⟩
  · intro p hp d hd
    rw [mesh_length] at hd
    exact cellD_src T hp hd
  · intro p hp d hd h
    rw [mesh_length] at hd
    by_cases ho : 8 * (blk p).length ≤ d
    · exact hval p hp d hd ho h
    · rw [src_own T hp (by omega)]
  · intro p hp dir hdir c hc d hd hf
    rw [mesh_length] at hd
    obtain ⟨l1, l2, l3⟩ := (T.mem p hp _).1 (labD_mem hd)
    have hol := own_len T hp
    rw [cellD_mesh (by omega), cellD_mesh hd, own_label T hp hc] at hf
    have c1 : c / 8 < (blk p).length := by omega
    have hm := faces_meets (blockAt_cube T (l := (p, c / 8, origin)) hp c1) (blockAt_cube T l1 l2) hdir (by omega) (by omega) hf
    have hm2 := meets_home T l1 l2 hm
    rw [← blockAt_mv] at hm2
    have hin : mvLab (negV (labD lab p d).2.2) (p, c / 8, origin) ∈ lab (labD lab p d).1 := (T.mem _ l1 _).2 ⟨hp, c1, hm2⟩
    obtain ⟨f1, f2, f3⟩ := lab_find hin (j := c % 8) (by omega)
    refine ⟨_, by rw [mesh_length]; exact f1, ?_, ?_⟩
    · show srcOf lab (labD lab p d).1 _ = _
      unfold srcOf
      rw [f2, f3]
      simp only [mvLab, Prod.mk.injEq, true_and]
      omega
    · show shOf lab L (labD lab p d).1 _ = _
      unfold shOf
      rw [f2, ← mulV_negV]
      congr 1
      simp [mvLab, addV, origin]

/-- The cells that touch a ghost cell which touches the patch have the same sources as those that touch its source. -/
theorem row_image (T : Tiling m blk pb L lab) {o : V3 Int} (G : Graded m blk L o) {p : Nat} (hp : p < m) {d : Nat} (hd : d < (lab p).length * 8)
    (hg : 8 * (blk p).length ≤ d) {dc c : Nat} (h1 : dc < 6) (hc : c < 8 * (blk p).length)
    (hcf : Faces dc (cellD (meshOf blk L lab p) c) (cellD (meshOf blk L lab p) d)) {dir : Nat} (hdir : dir < 6) :
    ∃ tt fro : Nat → Nat, ∀ q e0, srcOf lab p d = (q, e0) →
      (∀ e ∈ touching (meshOf blk L lab p) dir d, tt e ∈ touching (meshOf blk L lab q) dir e0 ∧ fro (tt e) = e ∧ srcOf lab q (tt e) = srcOf lab p e) ∧
      (∀ e ∈ touching (meshOf blk L lab q) dir e0, fro e ∈ touching (meshOf blk L lab p) dir d ∧ tt (fro e) = e) := by
  obtain ⟨l1, l2, l3⟩ := (T.mem p hp _).1 (labD_mem hd)
  have hbox := cellD_src T hp hd
  generalize hl : labD lab p d = l at l1 l2 l3
  have hsq : srcOf lab p d = (l.1, 8 * l.2.1 + d % 8) := by unfold srcOf; rw [hl]
  have hsh : shOf lab L p d = mulV l.2.2 L := by unfold shOf; rw [hl]
  rw [hsq, hsh] at hbox
  dsimp only at hbox
  have hq8 : 8 * l.2.1 + d % 8 < 8 * (blk l.1).length := by omega
  have hqo := own_len T l1
  have hol := own_len T hp
  -- membership one way
  have into : ∀ e ∈ touching (meshOf blk L lab p) dir d, mvLab (negV l.2.2) (labD lab p e) ∈ lab l.1 := by
    intro e he
    obtain ⟨e1, e2⟩ := Finset.mem_filter.1 he
    rw [Finset.mem_range, mesh_length] at e1
    obtain ⟨k1, k2, k3⟩ := (T.mem p hp _).1 (labD_mem e1)
    rw [cellD_mesh hd, cellD_mesh e1, hl] at e2
    have hm := meets_home T l1 l2 (meets_comm (faces_meets (blockAt_cube T l1 l2) (blockAt_cube T k1 k2) hdir (by omega) (by omega) e2))
    rw [← blockAt_mv] at hm
    exact (T.mem _ l1 _).2 ⟨k1, k2, hm⟩
  -- the other way
  have back : ∀ e ∈ touching (meshOf blk L lab l.1) dir (8 * l.2.1 + d % 8), mvLab l.2.2 (labD lab l.1 e) ∈ lab p := by
    intro e he
    obtain ⟨e1, e2⟩ := Finset.mem_filter.1 he
    rw [Finset.mem_range, mesh_length] at e1
    obtain ⟨k1, k2, k3⟩ := (T.mem l.1 l1 _).1 (labD_mem e1)
    rw [cellD_mesh (by omega), cellD_mesh e1, own_label T l1 hq8, show (8 * l.2.1 + d % 8) / 8 = l.2.1 by omega, show (8 * l.2.1 + d % 8) % 8 = d % 8 by omega,
      ← faces_shift _ _ _ (mulV l.2.2 L), ← cellOf_shift, ← cellOf_shift, ← blockAt_mv, ← blockAt_mv] at e2
    have el : mvLab l.2.2 (l.1, l.2.1, origin) = l := by simp [mvLab, addV, origin]
    rw [el] at e2
    have n1 : (mvLab l.2.2 (labD lab l.1 e)).1 < m := k1
    have n2 : (mvLab l.2.2 (labD lab l.1 e)).2.1 < (blk (mvLab l.2.2 (labD lab l.1 e)).1).length := k2
    generalize mvLab l.2.2 (labD lab l.1 e) = E at *
    rw [T.mem p hp]
    refine ⟨n1, n2, ?_⟩
    by_cases hE : E = l
    · rw [hE]; exact l3
    rw [cellD_mesh (by omega), cellD_mesh hd, hl, own_label T hp hc] at hcf
    have c1 : c / 8 < (blk p).length := by omega
    have hne : ((p, c / 8, origin) : Lab) ≠ l := by
      intro hh
      have ho := T.own p hp (c / 8) c1
      have hlab := labD_get hd
      rw [hl, ← hh] at hlab
      obtain ⟨a1, a2⟩ := List.getElem?_eq_some_iff.1 ho
      obtain ⟨b1, b2⟩ := List.getElem?_eq_some_iff.1 hlab
      have := (List.Nodup.getElem_inj_iff (T.nodup p hp)).1 (a2.trans b2.symm)
      omega
    have hC : Cube2 (blockAt blk L (p, c / 8, origin)) := blockAt_cube T (l := (p, c / 8, origin)) hp c1
    have hB := blockAt_cube T l1 l2
    have hEc := blockAt_cube T n1 n2
    have aCB := T.apart (p, c / 8, origin) l hp l1 c1 l2 hne
    have aBE := T.apart l E l1 n1 l2 n2 (Ne.symm hE)
    have al : ∀ l' : Lab, l'.1 < m → l'.2.1 < (blk l'.1).length → ∀ j < 3, bwidth (blockAt blk L l') ∣ V3.at (blockAt blk L l').lo j - V3.at o j := by
      intro l' p1 p2 j hj
      obtain ⟨r1, r2⟩ := G.align l'.1 p1 _ (blk_mem p2) j hj
      have ew : bwidth (blockAt blk L l') = bwidth ((blk l'.1).getD l'.2.1 box0) := by
        unfold bwidth blockAt shiftBox; dsimp only; omega
      rw [ew]
      unfold blockAt
      rw [(at_shift _ _ j).1, at_mulV, show ∀ x y z : Int, x + y - z = (x - z) + y from fun _ _ _ => by ring]
      exact dvd_add r1 (dvd_mul_of_dvd_right r2 _)
    have f1 := block_faces hC hB aCB h1 (by omega) (by omega) hcf
    have f2 := block_faces hB hEc aBE hdir (by omega) (by omega) e2
    have g1 := G.two _ _ hp l1 c1 l2 ⟨dc, h1, f1⟩
    have g2 := G.two _ _ l1 n1 l2 n2 ⟨dir, hdir, f2⟩
    have := reach hC hB hEc (al (p, c / 8, origin) hp c1) (al l l1 l2) (al E n1 n2) aCB aBE (by omega) (by omega) h1 hdir (by omega) (by omega) (by omega) hcf e2
    rw [blockAt_own] at this
    exact meets_mono this (T.inside p hp _ (blk_mem c1))
  refine ⟨fun e => 8 * (lab l.1).idxOf (mvLab (negV l.2.2) (labD lab p e)) + e % 8, fun e => 8 * (lab p).idxOf (mvLab l.2.2 (labD lab l.1 e)) + e % 8, ?_⟩
  intro q e0 hqe
  rw [hsq, Prod.mk.injEq] at hqe
  obtain ⟨rfl, rfl⟩ := hqe
  constructor
  · intro e he
    obtain ⟨f1, f2, f3⟩ := lab_find (into e he) (j := e % 8) (by omega)
    obtain ⟨e1, e2⟩ := Finset.mem_filter.1 he
    rw [Finset.mem_range, mesh_length] at e1
    dsimp only
    refine ⟨Finset.mem_filter.2 ⟨by rw [Finset.mem_range, mesh_length]; exact f1, ?_⟩, ?_, ?_⟩
    · rw [hbox, cellD_mesh e1] at e2
      rw [cellD_mesh f1, f2, f3, blockAt_mv, cellOf_shift]
      rw [← faces_shift _ _ _ (mulV l.2.2 L), mulV_negV, shift_shift, (add_negV _).2]
      show Faces dir _ (shiftBox _ ⟨0, 0, 0⟩)
      rw [shift_zero]
      exact e2
    · rw [f2, f3, mv_mv, (add_negV _).2, mv_zero]
      obtain ⟨r1, r2, r3⟩ := lab_find (labD_mem e1) (j := e % 8) (by omega)
      exact lab_unique (T.nodup p hp) r1 e1 r2 r3
    · unfold srcOf
      rw [f2, f3]
      rfl
  · intro e he
    obtain ⟨f1, f2, f3⟩ := lab_find (back e he) (j := e % 8) (by omega)
    obtain ⟨e1, e2⟩ := Finset.mem_filter.1 he
    rw [Finset.mem_range, mesh_length] at e1
    dsimp only
    refine ⟨Finset.mem_filter.2 ⟨by rw [Finset.mem_range, mesh_length]; exact f1, ?_⟩, ?_⟩
    · rw [cellD_mesh e1] at e2
      rw [hbox, cellD_mesh f1, f2, f3, blockAt_mv, cellOf_shift, faces_shift]
      exact e2
    · rw [f2, f3, mv_mv, (add_negV _).1, mv_zero]
      obtain ⟨r1, r2, r3⟩ := lab_find (labD_mem e1) (j := e % 8) (by omega)
      exact lab_unique (T.nodup l.1 l1) r1 e1 r2 r3

theorem width_shift (dx : ℚ) (B : Box) (s : V3 Int) : width dx (shiftBox B s) = width dx B := by
  unfold width shiftBox
  simp only [add_sub_add_right_eq_sub]

/-- The mean slopes of a ghost cell which touches the patch are those of its source. -/
theorem mean_image (T : Tiling m blk pb L lab) {o : V3 Int} (G : Graded m blk L o) (dx : ℚ) (f : Nat → Nat → ℚ)
    (hf : ∀ p < m, ∀ d < (lab p).length * 8, f p d = f (srcOf lab p d).1 (srcOf lab p d).2) {p : Nat} (hp : p < m) {d : Nat} (hd : d < (lab p).length * 8)
    (hg : 8 * (blk p).length ≤ d) {dc c : Nat} (h1 : dc < 6) (hc : c < 8 * (blk p).length)
    (hcf : Faces dc (cellD (meshOf blk L lab p) c) (cellD (meshOf blk L lab p) d)) {dir : Nat} (hdir : dir < 6) :
    meanSlope dx (meshOf blk L lab p) (f p) dir d = meanSlope dx (meshOf blk L lab (srcOf lab p d).1) (f (srcOf lab p d).1) dir (srcOf lab p d).2 := by
  obtain ⟨tt, fro, h⟩ := row_image T G hp hd hg h1 hc hcf hdir
  obtain ⟨t1, t2⟩ := h _ _ rfl
  obtain ⟨l1, -, -⟩ := (T.mem p hp _).1 (labD_mem hd)
  have hlq : (srcOf lab p d).1 < m := l1
  have lt : ∀ (q dir c e : Nat), e ∈ touching (meshOf blk L lab q) dir c → e < (lab q).length * 8 := by
    intro q dir c e he
    have := (Finset.mem_filter.1 he).1
    rwa [Finset.mem_range, mesh_length] at this
  unfold meanSlope
  congr 1
  · refine Finset.sum_nbij' tt fro (fun e he => (t1 e he).1) (fun e he => (t2 e he).1) (fun e he => (t1 e he).2.1) (fun e he => (t2 e he).2) ?_
    intro e he
    obtain ⟨s1, s2, s3⟩ := t1 e he
    replace s3 : srcOf lab (srcOf lab p d).1 (tt e) = srcOf lab p e := s3
    have v1 := hf p hp e (lt _ _ _ _ he)
    have v2 := hf _ hlq (tt e) (lt _ _ _ _ s1)
    rw [s3] at v2
    have b1 := cellD_src T hp (lt _ _ _ _ he)
    have b2 := cellD_src T hlq (lt _ _ _ _ s1)
    rw [s3] at b2
    rw [v2, ← v1, ← hf p hp d hd, b2, width_shift]
    conv_lhs => rw [b1, width_shift, cellD_src T hp hd, width_shift]
  · congr 1
    refine Finset.card_bij (fun e _ => tt e) (fun e he => (t1 e he).1) ?_ ?_
    · intro a ha b hb hab
      rw [← (t1 a ha).2.1, hab, (t1 b hb).2.1]
    · intro b hb
      exact ⟨fro b, (t2 b hb).1, (t2 b hb).2⟩

theorem slopes_image (T : Tiling m blk pb L lab) {o : V3 Int} (G : Graded m blk L o) (mode : SlopeMode) (dx : ℚ) (f : Nat → Nat → ℚ)
    (hf : ∀ p < m, ∀ d < (lab p).length * 8, f p d = f (srcOf lab p d).1 (srcOf lab p d).2) {p : Nat} (hp : p < m) {d : Nat} (hd : d < (lab p).length * 8)
    (hg : 8 * (blk p).length ≤ d) {dc c : Nat} (h1 : dc < 6) (hc : c < 8 * (blk p).length)
    (hcf : Faces dc (cellD (meshOf blk L lab p) c) (cellD (meshOf blk L lab p) d)) :
    slopes mode dx (meshOf blk L lab p) (f p) d = slopes mode dx (meshOf blk L lab (srcOf lab p d).1) (f (srcOf lab p d).1) (srcOf lab p d).2 := by
  unfold slopes
  have := fun dir hdir => mean_image T G dx f hf hp hd hg h1 hc hcf (dir := dir) hdir
  rw [this 0 (by omega), this 1 (by omega), this 2 (by omega), this 3 (by omega), this 4 (by omega), this 5 (by omega)]

end
end Shamrock.Fv
