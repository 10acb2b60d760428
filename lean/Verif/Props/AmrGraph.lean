import Verif.Proof.AmrFace
/-! C58: the neighbour graphs of the AMR solver are the shared faces. The specification (`Faces`, `Separate`, `facePairs`, `cells`, `opp`) is at the head of
Proof/AmrFace.lean, the hypotheses on the mesh (`TreeIn`, `IsHull`, `SameScale`) in Proof/AmrRTree.lean. -/
namespace Shamrock.Amr

theorem treeIn_solid {env : BVHEnv Int} {bs : List Box} {lo hi : V3 Int} (H : TreeIn env bs lo hi) : ∀ b ∈ bs, Solid b := H.vol

/-- C58 (blocks). For a mesh of 1 to 2^24 + 1 blocks that do not overlap, of any sizes, any reduction level and any schedule: the tree is built, the graph in
direction `dir` is built, and iterating over the links of block `a` visits exactly the blocks that touch `a` through its face in that direction, each once.
The rows do not depend on the schedules or on the old contents of the buffers. -/
theorem C58_block_links (env : BVHEnv Int) (bs : List Box) (lo hi : V3 Int) (H : TreeIn env bs lo hi) (hs : Separate bs) (level dir : Nat)
    (hc : facePairs dir bs < 2 ^ 32) :
    ∃ t row, buildTree env bs level = .ok t ∧ (∀ a < bs.length, (row a).Nodup ∧ ∀ b, b ∈ row a ↔ ∃ A B, bs[a]? = some A ∧ bs[b]? = some B ∧ Faces dir A B) ∧
      ∀ junk sched, ∃ g, blockGraph junk sched bs t dir = some g ∧ g.links = (List.range bs.length).flatMap row ∧ g.count.toNat = g.links.length ∧
        ∀ a < bs.length, g.forEach a = some (row a) := by
  obtain ⟨t, h1, h2⟩ := tree_ok env bs lo hi H level
  obtain ⟨R, r1, r2⟩ := blockGraph_ok t hs H.vol h2 dir hc
  refine ⟨t, R, h1, r1, fun junk sched => ?_⟩
  obtain ⟨g, g1, g2⟩ := r2 junk sched
  exact ⟨g, g1, by rw [g2.links, List.flatMap_def], g2.count, fun a ha => g2.forEach a ha⟩

/-- C58 (cells). If moreover every block is at least two wide, the cell graph in direction `dir` is built from the block graph; iterating over the links of
cell `c` visits exactly the cells that touch `c` through its face in that direction, in the same block or in another one, each once; and the antecedent of
every link is the cell it starts from. -/
theorem C58_cell_links (env : BVHEnv Int) (bs : List Box) (lo hi : V3 Int) (H : TreeIn env bs lo hi) (hs : Separate bs) (hw : ∀ b ∈ bs, Wide b)
    (level dir : Nat) (hc : facePairs dir bs < 2 ^ 32) (hcc : facePairs dir (cells bs) < 2 ^ 32) :
    ∃ t row, buildTree env bs level = .ok t ∧
      (∀ c < (cells bs).length, (row c).Nodup ∧ ∀ d, d ∈ row c ↔ ∃ A B, (cells bs)[c]? = some A ∧ (cells bs)[d]? = some B ∧ Faces dir A B) ∧
      ∀ junk sched junk' sched' junk2 sched2, ∃ g gc, blockGraph junk sched bs t dir = some g ∧ cellGraph junk' sched' junk2 sched2 bs g dir = some gc ∧
        gc.links = (List.range (cells bs).length).flatMap row ∧ gc.count.toNat = gc.links.length ∧
        gc.ante = ((List.range (cells bs).length).flatMap fun c => (row c).map fun _ => c) ∧
        ∀ c < (cells bs).length, gc.forEach c = some (row c) := by
  obtain ⟨t, h1, h2⟩ := tree_ok env bs lo hi H level
  obtain ⟨R, r1, r2⟩ := blockGraph_ok t hs H.vol h2 dir hc
  obtain ⟨C, c1, c2⟩ := cellGraph_ok hs hw R dir r1 hcc
  rw [cells_length]
  refine ⟨t, C, h1, c1, fun junk sched junk' sched' junk2 sched2 => ?_⟩
  obtain ⟨g, g1, g2⟩ := r2 junk sched
  obtain ⟨gc, k1, k2, k3⟩ := c2 g g2 junk' sched' junk2 sched2
  exact ⟨g, gc, g1, k1, by rw [k2.links, List.flatMap_def], k2.count, k3, fun a ha => k2.forEach a ha⟩

/-- C58 (all directions). The blocks linked to `a` in one of the six directions are exactly those that share a face with it: the links that the refinement
pass (C57) relies on. -/
theorem C58_adjacent (env : BVHEnv Int) (bs : List Box) (lo hi : V3 Int) (H : TreeIn env bs lo hi) (hs : Separate bs) (level : Nat)
    (hc : ∀ dir < 6, facePairs dir bs < 2 ^ 32) (junk : Nat → Nat) (sched : List Nat) :
    ∃ (t : BVH Int) (g : Nat → NGraph) (rows : Nat → Nat → List Nat), buildTree env bs level = .ok t ∧ (∀ dir < 6, blockGraph junk sched bs t dir = some (g dir) ∧ ∀ a < bs.length, (g dir).forEach a = some (rows dir a)) ∧
      ∀ (a b : Nat) A B, a ≠ b → bs[a]? = some A → bs[b]? = some B → ((∃ dir < 6, b ∈ rows dir a) ↔ Adjacent A B) := by
  obtain ⟨t, h1, h2⟩ := tree_ok env bs lo hi H level
  have hall : ∀ dir, ∃ (g : NGraph) (R : Nat → List Nat), dir < 6 → (∀ a < bs.length, IsRow dir bs a (R a)) ∧ blockGraph junk sched bs t dir = some g ∧ GraphOf g bs.length R := by
    intro dir
    by_cases hd : dir < 6
    · obtain ⟨R, r1, r2⟩ := blockGraph_ok t hs H.vol h2 dir (hc dir hd)
      obtain ⟨g, g1, g2⟩ := r2 junk sched
      exact ⟨g, R, fun _ => ⟨r1, g1, g2⟩⟩
    · exact ⟨⟨[], [], 0, 0, []⟩, fun _ => [], fun h => absurd h hd⟩
  choose g R hgR using hall
  refine ⟨t, g, R, h1, fun dir hd => ⟨(hgR dir hd).2.1, fun a ha => (hgR dir hd).2.2.forEach a ha⟩, ?_⟩
  intro a b A B hab hA hB
  rw [adjacent_faces A B (H.vol A (List.mem_of_getElem? hA)) (H.vol B (List.mem_of_getElem? hB)) (hs a b A B hab hA hB)]
  have hal := (List.getElem?_eq_some_iff.1 hA).1
  constructor
  · rintro ⟨dir, hd, hm⟩
    obtain ⟨A', B', e1, e2, e3⟩ := (((hgR dir hd).1 a hal).2 b).1 hm
    rw [hA, Option.some.injEq] at e1
    rw [hB, Option.some.injEq] at e2
    subst e1 e2
    exact ⟨dir, hd, e3⟩
  · rintro ⟨dir, hd, hf⟩
    exact ⟨dir, hd, (((hgR dir hd).1 a hal).2 b).2 ⟨A, B, hA, hB, hf⟩⟩

/-- C58 (symmetry). A cell is linked to another one in a direction iff the other one is linked to it in the opposite direction: every flux between two cells is
seen from both. -/
theorem C58_symmetric (env : BVHEnv Int) (bs : List Box) (lo hi : V3 Int) (H : TreeIn env bs lo hi) (hs : Separate bs) (hw : ∀ b ∈ bs, Wide b)
    (level dir : Nat) (hc : facePairs dir bs < 2 ^ 32) (hc' : facePairs (opp dir) bs < 2 ^ 32) (hcc : facePairs dir (cells bs) < 2 ^ 32)
    (hcc' : facePairs (opp dir) (cells bs) < 2 ^ 32) (junk junk' junk2 : Nat → Nat) (sched sched' sched2 : List Nat) :
    ∃ (t : BVH Int) (g gc h hc : NGraph) (row row' : Nat → List Nat), buildTree env bs level = .ok t ∧ blockGraph junk sched bs t dir = some g ∧ cellGraph junk' sched' junk2 sched2 bs g dir = some gc ∧
      blockGraph junk sched bs t (opp dir) = some h ∧ cellGraph junk' sched' junk2 sched2 bs h (opp dir) = some hc ∧
      (∀ c < (cells bs).length, gc.forEach c = some (row c) ∧ hc.forEach c = some (row' c)) ∧
      ∀ c < (cells bs).length, ∀ d < (cells bs).length, (d ∈ row c ↔ c ∈ row' d) := by
  obtain ⟨t, row, h1, h2, h3⟩ := C58_cell_links env bs lo hi H hs hw level dir hc hcc
  obtain ⟨t', row', k1, k2, k3⟩ := C58_cell_links env bs lo hi H hs hw level (opp dir) hc' hcc'
  rw [h1, Res.ok.injEq] at k1
  subst k1
  obtain ⟨g, gc, a1, a2, _, _, _, a3⟩ := h3 junk sched junk' sched' junk2 sched2
  obtain ⟨h, hc, b1, b2, _, _, _, b3⟩ := k3 junk sched junk' sched' junk2 sched2
  refine ⟨t, g, gc, h, hc, row, row', h1, a1, a2, b1, b2, fun c hc => ⟨a3 c hc, b3 c hc⟩, ?_⟩
  intro c hc d hd
  rw [(h2 c hc).2 d, (k2 d hd).2 c]
  constructor
  · rintro ⟨A, B, e1, e2, e3⟩; exact ⟨B, A, e2, e1, (faces_opp dir A B).2 e3⟩
  · rintro ⟨B, A, e2, e1, e3⟩; exact ⟨A, B, e1, e2, (faces_opp dir A B).1 e3⟩

/-- C58 (limitation). On a domain whose extents are not on the same side of 2^20 the build throws. -/
theorem C58_elongated_throws (env : BVHEnv Int) (bs : List Box) (lo hi : V3 Int) (hne : bs ≠ []) (hv : ∀ b ∈ bs, Solid b) (hh : IsHull bs lo hi)
    (he : hi.x - lo.x ≤ 2 ^ 62 ∧ hi.y - lo.y ≤ 2 ^ 62 ∧ hi.z - lo.z ≤ 2 ^ 62) (hbad : ¬ SameScale lo hi) (level : Nat) :
    buildTree env bs level = .throws := by
  obtain ⟨lo', hi', h1, h2⟩ := treeBox_ok bs hne
  obtain ⟨rfl, rfl⟩ := hull_unique hh h1
  have hext : ∀ (f : V3 Int → Int), (∃ b ∈ bs, f b.lo = f lo) → (∀ b ∈ bs, f lo ≤ f b.lo ∧ f b.hi ≤ f hi) → (∀ b ∈ bs, f b.lo < f b.hi) → 1 ≤ f hi - f lo := by
    intro f ⟨b, hb, he⟩ ha hv
    have := ha b hb; have := hv b hb; omega
  have ex := hext (·.x) hh.1.2.1 hh.1.1 (fun b hb => (hv b hb).1)
  have ey := hext (·.y) hh.2.1.2.1 hh.2.1.1 (fun b hb => (hv b hb).2.1)
  have ez := hext (·.z) hh.2.2.2.1 hh.2.2.1 (fun b hb => (hv b hb).2.2)
  obtain ⟨i, i1, i2, i3, i4⟩ := i64_pow (hi.x - lo.x) ex he.1
  obtain ⟨j, j1, j2, j3, j4⟩ := i64_pow (hi.y - lo.y) ey he.2.1
  obtain ⟨k, k1, k2, k3, k4⟩ := i64_pow (hi.z - lo.z) ez he.2.2
  have hbig : ∀ (v : Int) (m : Nat), (v ≤ 2 ^ 20 → m ≤ 20) → v ≤ 2 ^ m → (2097152 ≤ (2 : Int) ^ m ↔ 2 ^ 20 < v) := by
    intro v m h h'
    constructor
    · intro q
      by_contra hm
      have : (2 : Int) ^ m ≤ 2 ^ 20 := pow_le_pow_right₀ (by norm_num) (h (by omega))
      norm_num at this; omega
    · intro q
      have hm : 21 ≤ m := by
        by_contra hm
        have : (2 : Int) ^ m ≤ 2 ^ 20 := pow_le_pow_right₀ (by norm_num) (by omega)
        omega
      have : (2 : Int) ^ 21 ≤ 2 ^ m := pow_le_pow_right₀ (by norm_num) hm
      norm_num at this; omega
  have bx := hbig _ _ i4 i3
  have bY := hbig _ _ j4 j3
  have bz := hbig _ _ k4 k3
  have hcode : ∀ p, blockCode ⟨lo, ⟨lo.x + 2 ^ i, lo.y + 2 ^ j, lo.z + 2 ^ k⟩⟩ p = none := by
    intro p
    unfold blockCode
    dsimp only
    rw [if_neg]
    rw [decide_eq_decide, decide_eq_decide, show lo.x + 2 ^ i - lo.x = (2 : Int) ^ i by omega, show lo.y + 2 ^ j - lo.y = (2 : Int) ^ j by omega,
      show lo.z + 2 ^ k - lo.z = (2 : Int) ^ k by omega, bx, bY, bz]
    intro hq
    apply hbad
    unfold SameScale
    omega
  unfold buildTree
  rw [h2]
  dsimp only
  rw [i2, j2, k2]
  unfold radixStruct
  by_cases hl : (bs.map (·.lo)).length = 0 ∨ 2147483646 < (bs.map (·.lo)).length
  · rw [if_pos hl]; rfl
  · rw [if_neg hl]
    cases bs with
    | nil => exact absurd rfl hne
    | cons b r => rw [List.map_cons, List.mapM_cons, hcode]; rfl

/-! ### A mesh: a block of width 4 beside eight blocks of width 2 -/

def gxBs : List Box := ⟨⟨0, 0, 0⟩, ⟨4, 4, 4⟩⟩ :: (List.range 8).map fun (i : Nat) =>
  let p : V3 Int := ⟨4 + 2 * (i % 2 : Nat), 2 * (i / 2 % 2 : Nat), 2 * (i / 4 : Nat)⟩
  ⟨p, ⟨p.x + 2, p.y + 2, p.z + 2⟩⟩

def gxEnv : BVHEnv Int := ⟨fun _ _ => [], [], fun _ => 0, List.range 9, List.replicate 64 [], List.replicate 64 [], fun _ => ⟨0, 0, 0⟩, fun _ => ⟨0, 0, 0⟩⟩

theorem gx_in : TreeIn gxEnv gxBs ⟨0, 0, 0⟩ ⟨8, 4, 4⟩ := by
  refine ⟨by decide, by decide, by decide, ?_, by decide, ?_, List.Perm.refl _, rfl, rfl⟩
  · unfold IsHull; decide
  · unfold SameScale; decide

theorem gx_sep : Separate gxBs := by
  have key : ∀ i < gxBs.length, ∀ j < gxBs.length, i ≠ j → volMeet (gxBs.getD i box0) (gxBs.getD j box0) = false := by decide +kernel
  intro i j A B hij hA hB
  have h := key i (List.getElem?_eq_some_iff.1 hA).1 j (List.getElem?_eq_some_iff.1 hB).1 hij
  rw [List.getD_eq_getElem?_getD, List.getD_eq_getElem?_getD, hA, hB] at h
  exact (apart_iff A B).2 h

theorem gx_wide : ∀ b ∈ gxBs, Wide b := by unfold Wide; decide

theorem gx_pairs : ∀ dir < 6, facePairs dir gxBs < 2 ^ 32 ∧ facePairs dir (cells gxBs) < 2 ^ 32 := by decide +kernel

/-- The big block sees four blocks through its +x face, and none through the others. -/
example : ∃ t row, buildTree gxEnv gxBs 2 = .ok t ∧ (∀ a < gxBs.length, (row a).Nodup ∧ ∀ b, b ∈ row a ↔ ∃ A B, gxBs[a]? = some A ∧ gxBs[b]? = some B ∧ Faces 0 A B) ∧
    ∀ junk sched, ∃ g, blockGraph junk sched gxBs t 0 = some g ∧ g.links = (List.range gxBs.length).flatMap row ∧ g.count.toNat = g.links.length ∧
      ∀ a < gxBs.length, g.forEach a = some (row a) := C58_block_links _ _ _ _ gx_in gx_sep 2 0 (gx_pairs 0 (by omega)).1

example : (facePairs 0 gxBs, facePairs 0 (cells gxBs)) = (8, 68) := by decide +kernel

/-- The computed graph, with some schedule. -/
example : (match buildTree gxEnv gxBs 2 with
    | .ok t => (blockGraph (fun i => i) [3, 1, 1, 0, 0] gxBs t 0).bind fun g => (g.forEach 0).map fun r => ([1, 3, 5, 7].all (r.contains ·), r.length, g.count.toNat)
    | _ => none) = some (true, 4, 8) := by decide +kernel

/-- A long thin domain: the build throws. -/
example : buildTree gxEnv [⟨⟨0, 0, 0⟩, ⟨4, 4, 4⟩⟩, ⟨⟨2097152, 0, 0⟩, ⟨2097156, 4, 4⟩⟩] 2 = .throws :=
  C58_elongated_throws _ _ ⟨0, 0, 0⟩ ⟨2097156, 4, 4⟩ (by decide) (by unfold Solid; decide) (by unfold IsHull; decide) (by decide) (by unfold SameScale; decide) 2

example := C58_cell_links _ _ _ _ gx_in gx_sep gx_wide 2 0 (gx_pairs 0 (by omega)).1 (gx_pairs 0 (by omega)).2
example := C58_adjacent _ _ _ _ gx_in gx_sep 2 (fun d hd => (gx_pairs d hd).1) (fun i => i) [1, 2]
example := C58_symmetric _ _ _ _ gx_in gx_sep gx_wide 2 2 (gx_pairs 2 (by omega)).1 (gx_pairs 3 (by omega)).1 (gx_pairs 2 (by omega)).2 (gx_pairs 3 (by omega)).2
  (fun i => i) (fun i => i) (fun i => i) [1, 2] [] []

end Shamrock.Amr
