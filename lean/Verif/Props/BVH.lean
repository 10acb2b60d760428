import Verif.Proof.BVHBox
/-! C52: the bounding volume hierarchy built by `CompressedLeafBVH` and the search of objects in it. -/
namespace Shamrock

section
variable {F : Type} [LinearOrder F] {w : Nat}

/-- The encoder interleaves the bits of coordinates on a `2^bits` grid and leaves at least one free bit. -/
def MOk (C : MCode w) : Prop := 3 * C.bits < w ∧ ∀ x y z, InGrid C.bits x y z → IsMorton C.bits (C.enc x y z).toNat x y z

theorem mcode32_ok : MOk mcode32 := by
  refine ⟨by decide, ?_⟩
  intro x y z hg
  have hg' : InGrid 10 x y z := hg
  obtain ⟨hx, hy, hz⟩ := hg'
  have := C01_morton32_bits ⟨BitVec.ofNat 32 x, BitVec.ofNat 32 y, BitVec.ofNat 32 z⟩
  simp only [BitVec.toNat_ofNat] at this
  rw [Nat.mod_eq_of_lt (by omega), Nat.mod_eq_of_lt (by omega), Nat.mod_eq_of_lt (by omega)] at this
  exact this

theorem mcode64_ok : MOk mcode64 := by
  refine ⟨by decide, ?_⟩
  intro x y z hg
  have hg' : InGrid 21 x y z := hg
  obtain ⟨hx, hy, hz⟩ := hg'
  have := C01_morton64_bits ⟨BitVec.ofNat 64 x, BitVec.ofNat 64 y, BitVec.ofNat 64 z⟩
  simp only [BitVec.toNat_ofNat] at this
  rw [Nat.mod_eq_of_lt (by omega), Nat.mod_eq_of_lt (by omega), Nat.mod_eq_of_lt (by omega)] at this
  exact this

/-- One axis of the bounding box is not empty, its scale factor is usable and its two ends convert to grid coordinates. -/
def GridOk (A : GridArith F) (bits : Nat) (lo hi : F) : Prop :=
  lo < hi ∧ A.goodFact (A.div (A.sub hi lo) (A.ofNat (2 ^ bits))) ∧
    (A.conv (A.div (A.sub lo lo) (A.div (A.sub hi lo) (A.ofNat (2 ^ bits))))).isSome ∧
    (A.conv (A.div (A.sub hi lo) (A.div (A.sub hi lo) (A.ofNat (2 ^ bits))))).isSome

/-- The inputs of a build: `n` objects, object `i` has corners `P i` and `Q i` (any position, inside or outside of the bounding box);
`n ≤ 2^24 + 1` because of C06; the environment may schedule the kernels in any way. -/
structure BVHIn (A : GridArith F) (C : MCode w) (env : BVHEnv F) (big small : F) (pmin pmax : List (V3 F)) (P Q : Nat → V3 F)
    (objCnt : BitVec 32) (lo hi : V3 F) : Prop where
  code : MOk C
  boxx : GridOk A C.bits lo.x hi.x
  boxy : GridOk A C.bits lo.y hi.y
  boxz : GridOk A C.bits lo.z hi.z
  pos : 1 ≤ objCnt.toNat
  lim : objCnt.toNat ≤ 2 ^ 24 + 1
  lower : ∀ i < objCnt.toNat, pmin[i]? = some (P i)
  upper : ∀ i < objCnt.toNat, pmax[i]? = some (Q i)
  below : ∀ i < objCnt.toNat, (P i).x ≤ big ∧ (P i).y ≤ big ∧ (P i).z ≤ big
  above : ∀ i < objCnt.toNat, small ≤ (Q i).x ∧ small ≤ (Q i).y ∧ small ≤ (Q i).z
  order : env.order.Perm (List.range objCnt.toNat)
  launchMin : env.schedMin.length = karrasTreeDepth w
  launchMax : env.schedMax.length = karrasTreeDepth w

/-- `[a, b]` is the smallest box that contains all the objects of a non empty list. -/
def IsBox (P Q : Nat → V3 F) (objs : List Nat) (a b : V3 F) : Prop := LowCorner P objs a ∧ HighCorner Q objs b

theorem gridCoord_some {A : GridArith F} {bits : Nat} {lo hi : F} (h : GridOk A bits lo hi) (p : F) :
    ∃ u, gridCoord A bits lo hi p = some u ∧ u < 2 ^ bits := by
  obtain ⟨h1, h2, h3, h4⟩ := h
  unfold gridCoord
  have hc1 : lo ≤ min (max p lo) hi := le_min (le_max_right _ _) (le_of_lt h1)
  have hc2 : min (max p lo) hi ≤ hi := min_le_right _ _
  have := A.conv_between _ _ _ (A.div_mono _ _ _ h2 (A.sub_mono lo _ _ hc1)) (A.div_mono _ _ _ h2 (A.sub_mono lo _ _ hc2)) h3 h4
  obtain ⟨u, hu⟩ := Option.isSome_iff_exists.1 this
  rw [hu]
  refine ⟨_, rfl, ?_⟩
  have := Nat.two_pow_pos bits
  simp only
  omega

theorem gridCoord_mono {A : GridArith F} {bits : Nat} {lo hi : F} (h : GridOk A bits lo hi) {p q : F} {u v : Nat} (hpq : p ≤ q)
    (hu : gridCoord A bits lo hi p = some u) (hv : gridCoord A bits lo hi q = some v) : u ≤ v := by
  unfold gridCoord at hu hv
  rw [Option.map_eq_some_iff] at hu hv
  obtain ⟨u', hu', rfl⟩ := hu
  obtain ⟨v', hv', rfl⟩ := hv
  have := A.conv_mono _ _ _ _ (A.div_mono _ _ _ h.2.1 (A.sub_mono lo _ _ (min_le_min_right hi (max_le_max_right lo hpq)))) hu' hv'
  omega

variable {A : GridArith F} {C : MCode w} {env : BVHEnv F} {big small : F} {pmin pmax : List (V3 F)} {P Q : Nat → V3 F}
  {objCnt : BitVec 32} {lo hi : V3 F}

theorem mortonOf_some (H : BVHIn A C env big small pmin pmax P Q objCnt lo hi) (p : V3 F) :
    ∃ x y z, gridCoord A C.bits lo.x hi.x p.x = some x ∧ gridCoord A C.bits lo.y hi.y p.y = some y ∧
      gridCoord A C.bits lo.z hi.z p.z = some z ∧ InGrid C.bits x y z ∧ mortonOf A C lo hi p = some (C.enc x y z) := by
  obtain ⟨x, hx, hx'⟩ := gridCoord_some H.boxx p.x
  obtain ⟨y, hy, hy'⟩ := gridCoord_some H.boxy p.y
  obtain ⟨z, hz, hz'⟩ := gridCoord_some H.boxz p.z
  refine ⟨x, y, z, hx, hy, hz, ⟨hx', hy', hz'⟩, ?_⟩
  unfold mortonOf
  rw [hx, hy, hz]; rfl

theorem lowCorner_append (P : Nat → V3 F) (a b : List Nat) (u v : V3 F) (hu : LowCorner P a u) (hv : LowCorner P b v) :
    LowCorner P (a ++ b) (vmin3 u v) := ⟨axLow_append hu.1 hv.1, axLow_append hu.2.1 hv.2.1, axLow_append hu.2.2 hv.2.2⟩

theorem highCorner_append (P : Nat → V3 F) (a b : List Nat) (u v : V3 F) (hu : HighCorner P a u) (hv : HighCorner P b v) :
    HighCorner P (a ++ b) (vmax3 u v) := ⟨axHigh_append hu.1 hv.1, axHigh_append hu.2.1 hv.2.1, axHigh_append hu.2.2 hv.2.2⟩

/-- Everything about the result of the build, in terms of the tree. -/
theorem rebuild_ok (H : BVHIn A C env big small pmin pmax P Q objCnt lo hi) (level : Nat) :
    ∃ t T st, rebuildFromRanges A C env big small pmin pmax objCnt lo hi level = .ok t ∧
      StructOk objCnt.toNat (3 * C.bits) (fun i => (mortonOf A C lo hi (P i)).getD 0#w) t.sortMap t.redMap t.nodes T st ∧
      t.bmin.length = 2 * t.nodes.length + 1 ∧ t.bmax.length = 2 * t.nodes.length + 1 ∧
      ∀ S ∈ T.subtrees, ∃ a b, t.bmin[cellIdx t.nodes.length S.ref]? = some a ∧ t.bmax[cellIdx t.nodes.length S.ref]? = some b ∧
        IsBox P Q (S.leaves.flatMap (leafObjs t.sortMap st)) a b := by
  obtain ⟨hsb, henc⟩ := H.code
  have hcode : ∀ i, mortonOf A C lo hi (P i) = some ((mortonOf A C lo hi (P i)).getD 0#w) := by
    intro i
    obtain ⟨x, y, z, _, _, _, _, h⟩ := mortonOf_some H (P i)
    rw [h]; rfl
  obtain ⟨sortMap, redMap, nodes, T, st, b1, b2⟩ := buildStruct_ok A C env pmin objCnt lo hi level (3 * C.bits)
    (fun i => (mortonOf A C lo hi (P i)).getD 0#w) ⟨H.boxx.1, H.boxy.1, H.boxz.1⟩ H.pos H.lim
    (fun i hi' => by rw [H.lower i hi']; exact hcode i) hsb (fun i _ => by
      obtain ⟨x, y, z, _, _, _, hg, h⟩ := mortonOf_some H (P i)
      rw [h]; exact isMorton_lt (henc x y z hg)) H.order
  obtain ⟨bm, m1, m2, m3⟩ := aabbBuf_ok b2 vmin3 ⟨big, big, big⟩ pmin env.schedMin (by rw [H.launchMin]; unfold karrasTreeDepth; omega)
    env.oldMin (LowCorner P) (fun ids hne hlt => leafAcc_low P pmin ids hne (fun i hi' => H.lower i (hlt i hi')) big
      (fun i hi' => H.below i (hlt i hi'))) (lowCorner_append P)
  obtain ⟨bx, x1, x2, x3⟩ := aabbBuf_ok b2 vmax3 ⟨small, small, small⟩ pmax env.schedMax (by rw [H.launchMax]; unfold karrasTreeDepth; omega)
    env.oldMax (HighCorner Q) (fun ids hne hlt => leafAcc_high Q pmax ids hne (fun i hi' => H.upper i (hlt i hi')) small
      (fun i hi' => H.above i (hlt i hi'))) (highCorner_append Q)
  refine ⟨⟨sortMap, redMap, nodes, bm, bx⟩, T, st, ?_, b2, m2, x2, ?_⟩
  · unfold rebuildFromRanges
    rw [b1]
    simp only [Res.bind]
    rw [m1, x1]
  · intro S hS
    obtain ⟨a, ha, ha'⟩ := m3 S hS
    obtain ⟨b, hb, hb'⟩ := x3 S hS
    exact ⟨a, b, ha, hb, ha', hb'⟩

/-- C52 (build). For 1 to 2^24 + 1 objects at any positions, any compression level and any schedule of the kernels, the build succeeds;
the leaf cells are non empty and partition the objects; the objects of an internal cell are those of its left child followed by those of
its right child, the root has them all; and the box stored for each cell is the smallest box that contains its objects. -/
theorem C52_build (H : BVHIn A C env big small pmin pmax P Q objCnt lo hi) (level : Nat) :
    ∃ t, rebuildFromRanges A C env big small pmin pmax objCnt lo hi level = .ok t ∧
      (∃ L : Nat → List Nat, (∀ k ≤ t.nodes.length, forEachInLeaf t.sortMap t.redMap k = some (L k) ∧ L k ≠ []) ∧
        ((List.range (t.nodes.length + 1)).flatMap L).Perm (List.range objCnt.toNat)) ∧
      (∃ objs, forEachInCell t.sortMap t.redMap t.nodes 0 = some objs ∧ objs.Perm (List.range objCnt.toNat)) ∧
      (∀ id nd, t.nodes[id]? = some nd → ∃ l r, forEachInCell t.sortMap t.redMap t.nodes (leftChild t.nodes.length nd) = some l ∧
        forEachInCell t.sortMap t.redMap t.nodes (rightChild t.nodes.length nd) = some r ∧
        forEachInCell t.sortMap t.redMap t.nodes id = some (l ++ r)) ∧
      t.bmin.length = 2 * t.nodes.length + 1 ∧ t.bmax.length = 2 * t.nodes.length + 1 ∧
      ∀ id < 2 * t.nodes.length + 1, ∃ objs a b, forEachInCell t.sortMap t.redMap t.nodes id = some objs ∧ objs ≠ [] ∧
        t.bmin[id]? = some a ∧ t.bmax[id]? = some b ∧ IsBox P Q objs a b := by
  obtain ⟨t, T, st, h1, h2, h3, h4, h5⟩ := rebuild_ok H level
  refine ⟨t, h1, ⟨leafObjs t.sortMap st, fun k hk => ⟨forEachInLeaf_ok h2 k hk, leafObjs_ne h2 k hk⟩, all_objs h2⟩, ?_, ?_, h3, h4, ?_⟩
  · have := forEachInCell_ok h2 T (self_mem_subtrees T)
    rw [whole_root h2.whole] at this
    refine ⟨_, this, ?_⟩
    rw [whole_leaves h2.whole]; exact all_objs h2
  · intro id nd hnd
    have hlt : id < t.nodes.length := (List.getElem?_eq_some_iff.1 hnd).1
    obtain ⟨l, r, hS⟩ := (internals_subtrees T id).1 ((whole_ints h2.whole).mem_iff.2 (List.mem_range.2 hlt))
    rcases h2.whole with Hc | ⟨hn0, _⟩
    · obtain ⟨nd', e1, e2, e3⟩ := complete_children Hc id l r hS
      rw [hnd, Option.some.injEq] at e1
      subst e1
      have hl : l ∈ T.subtrees := subtrees_trans T _ _ hS (by simp [KTree.subtrees, self_mem_subtrees])
      have hr : r ∈ T.subtrees := subtrees_trans T _ _ hS (by simp [KTree.subtrees, self_mem_subtrees])
      refine ⟨_, _, by rw [e2]; exact forEachInCell_ok h2 l hl, by rw [e3]; exact forEachInCell_ok h2 r hr, ?_⟩
      have := forEachInCell_ok h2 _ hS
      rw [show cellIdx t.nodes.length (KTree.node id l r).ref = id by simp [KTree.ref, cellIdx]] at this
      rw [this]
      simp [KTree.leaves]
    · rw [hn0] at hlt; simp at hlt
  · intro id hid
    obtain ⟨S, hS, rfl⟩ := (whole_cells h2.whole id).1 hid
    obtain ⟨a, b, ha, hb, hab⟩ := h5 S hS
    refine ⟨_, a, b, forEachInCell_ok h2 S hS, ?_, ha, hb, hab⟩
    obtain ⟨i, hi', _⟩ := hab.1.1.2
    intro hc
    rw [hc] at hi'
    cases hi'

/-- C52 (search). For every acceptance test the search ends without leaving its stack and reports no object twice; it reports exactly the
objects all of whose cells, from the root to the leaf, have a box that is accepted. -/
theorem C52_search (H : BVHIn A C env big small pmin pmax P Q objCnt lo hi) (level : Nat) (t : BVH F)
    (ht : rebuildFromRanges A C env big small pmin pmax objCnt lo hi level = .ok t) (accept : Nat → V3 F → V3 F → Bool) :
    ∃ found, rtreeFor C t accept = some found ∧ found.Nodup ∧
      ∀ i, i ∈ found ↔ i < objCnt.toNat ∧ ∀ id objs a b, forEachInCell t.sortMap t.redMap t.nodes id = some objs → i ∈ objs →
        t.bmin[id]? = some a → t.bmax[id]? = some b → accept id a b = true := by
  obtain ⟨t', T, st, h1, h2, h3, h4, h5⟩ := rebuild_ok H level
  rw [ht, Res.ok.injEq] at h1
  subst h1
  have hlim := H.lim
  refine ⟨_, rtreeFor_ok C t h2 (by omega) accept, ?_, ?_⟩
  · have hs : ((foundLeaves t.nodes.length (T.visit t.nodes.length (boxCond t accept))).flatMap (leafObjs t.sortMap st)).Sublist
        ((List.range (t.nodes.length + 1)).flatMap (leafObjs t.sortMap st)) := by
      rw [← whole_leaves h2.whole]
      exact sublist_flatMap _ (foundLeaves_sublist _ _ T)
    exact hs.nodup ((all_objs h2).nodup_iff.2 List.nodup_range)
  · intro i
    have hnd : T.leaves.Nodup := by rw [whole_leaves h2.whole]; exact List.nodup_range
    have hdisj : ((List.range (t.nodes.length + 1)).flatMap (leafObjs t.sortMap st)).Nodup := (all_objs h2).nodup_iff.2 List.nodup_range
    have huniq : ∀ k k', k ≤ t.nodes.length → k' ≤ t.nodes.length → i ∈ leafObjs t.sortMap st k → i ∈ leafObjs t.sortMap st k' → k = k' := by
      intro k k' hk hk' h h'
      rw [List.nodup_flatMap] at hdisj
      by_contra hne
      have hp := hdisj.2
      rw [List.pairwise_iff_getElem] at hp
      rcases Nat.lt_or_gt_of_ne hne with hlt | hlt
      · have := hp k k' (by simp; omega) (by simp; omega) hlt
        simp only [List.getElem_range, Function.onFun] at this
        exact this h h'
      · have := hp k' k (by simp; omega) (by simp; omega) hlt
        simp only [List.getElem_range, Function.onFun] at this
        exact this h' h
    rw [List.mem_flatMap]
    constructor
    · rintro ⟨k, hk, hik⟩
      have hkT : k ∈ T.leaves := (foundLeaves_sublist _ _ T).mem hk
      have hkl := subtree_leaf_le h2 T (self_mem_subtrees T) k hkT
      refine ⟨mem_leafObjs_lt h2 k hkl i hik, ?_⟩
      intro id objs a b ho hi' ha hb
      have hid : id < 2 * t.nodes.length + 1 := by rw [← h3]; exact (List.getElem?_eq_some_iff.1 ha).1
      obtain ⟨S, hS, rfl⟩ := (whole_cells h2.whole id).1 hid
      rw [forEachInCell_ok h2 S hS, Option.some.injEq] at ho
      subst ho
      obtain ⟨k', hk', hik'⟩ := List.mem_flatMap.1 hi'
      have := huniq k k' hkl (subtree_leaf_le h2 S hS k' hk') hik hik'
      subst this
      have := (mem_foundLeaves t.nodes.length (boxCond t accept) k T hnd hkT).1 hk S hS hk'
      unfold boxCond at this
      rw [ha, hb] at this
      exact this
    · rintro ⟨hi', hall⟩
      obtain ⟨k, hk, hik⟩ := List.mem_flatMap.1 ((all_objs h2).mem_iff.2 (List.mem_range.2 hi'))
      rw [List.mem_range] at hk
      have hkT : k ∈ T.leaves := by rw [whole_leaves h2.whole, List.mem_range]; exact hk
      refine ⟨k, (mem_foundLeaves t.nodes.length (boxCond t accept) k T hnd hkT).2 ?_, hik⟩
      intro S hS hkS
      obtain ⟨a, b, ha, hb, _⟩ := h5 S hS
      have := hall _ _ a b (forEachInCell_ok h2 S hS) (List.mem_flatMap.2 ⟨k, hkS, hik⟩) ha hb
      unfold boxCond
      rw [ha, hb]
      exact this

/-- Object corners `[p, q]` inside the box `[a, b]`. -/
def BoxIn (p q a b : V3 F) : Prop := (a.x ≤ p.x ∧ a.y ≤ p.y ∧ a.z ≤ p.z) ∧ (q.x ≤ b.x ∧ q.y ≤ b.y ∧ q.z ≤ b.z)

/-- C52 (neighbours). If the acceptance test accepts every box that contains a wanted object, then filtering the reported objects with
the exact test gives every wanted object exactly once and nothing else, whatever the tree looks like. -/
theorem C52_neighbours (H : BVHIn A C env big small pmin pmax P Q objCnt lo hi) (level : Nat) (t : BVH F)
    (ht : rebuildFromRanges A C env big small pmin pmax objCnt lo hi level = .ok t) (accept : Nat → V3 F → V3 F → Bool)
    (wanted : Nat → Bool) (hsound : ∀ id a b i, i < objCnt.toNat → wanted i = true → BoxIn (P i) (Q i) a b → accept id a b = true) :
    ∃ found, rtreeFor C t accept = some found ∧ (found.filter wanted).Perm ((List.range objCnt.toNat).filter wanted) := by
  obtain ⟨found, f1, f2, f3⟩ := C52_search H level t ht accept
  refine ⟨found, f1, ?_⟩
  rw [List.perm_ext_iff_of_nodup (f2.filter _) (List.nodup_range.filter _)]
  intro i
  rw [List.mem_filter, List.mem_filter, List.mem_range, f3]
  constructor
  · rintro ⟨⟨h, _⟩, h'⟩; exact ⟨h, h'⟩
  · rintro ⟨h, h'⟩
    refine ⟨⟨h, ?_⟩, h'⟩
    intro id objs a b ho hi' ha hb
    obtain ⟨t', b1, _, _, _, b5, _, b7⟩ := C52_build H level
    rw [ht, Res.ok.injEq] at b1
    subst b1
    obtain ⟨objs', a', b', g1, _, g3, g4, ⟨gx, gy, gz⟩, ⟨kx, ky, kz⟩⟩ := b7 id (by rw [← b5]; exact (List.getElem?_eq_some_iff.1 ha).1)
    rw [ho, Option.some.injEq] at g1
    rw [ha, Option.some.injEq] at g3
    rw [hb, Option.some.injEq] at g4
    subst g1 g3 g4
    exact hsound id a b i h h' ⟨⟨gx.1 i hi', gy.1 i hi', gz.1 i hi'⟩, ⟨kx.1 i hi', ky.1 i hi', kz.1 i hi'⟩⟩

/-- C52 (invalid inputs). No object, a number of objects above 2^31, or an empty bounding box: the build throws. -/
theorem C52_build_rejects (A : GridArith F) (C : MCode w) (env : BVHEnv F) (big small : F) (pmin pmax : List (V3 F)) (objCnt : BitVec 32)
    (lo hi : V3 F) (level : Nat)
    (h : objCnt.toNat = 0 ∨ 2 ^ 31 < objCnt.toNat ∨ ¬ (lo.x < hi.x ∧ lo.y < hi.y ∧ lo.z < hi.z)) :
    rebuildFromRanges A C env big small pmin pmax objCnt lo hi level = .throws := by
  have key : buildStruct A C env pmin objCnt lo hi level = .throws := by
    unfold buildStruct
    by_cases h0 : objCnt = 0#32
    · rw [if_pos h0]
    · rw [if_neg h0]
      have hne : objCnt.toNat ≠ 0 := fun hc => h0 (BitVec.eq_of_toNat_eq (by simpa using hc))
      by_cases hbig : 2 ^ 31 < objCnt.toNat
      · rw [C29_roundup_pow2_u32_out objCnt (Or.inr hbig)]
        unfold mortonCodeSet
        rw [if_pos (by simp; omega)]; rfl
      · have hb : ¬ (lo.x < hi.x ∧ lo.y < hi.y ∧ lo.z < hi.z) := by
          rcases h with h | h | h
          · exact absurd h hne
          · exact absurd h hbig
          · exact h
        unfold mortonCodeSet
        rw [if_neg hb]
        split <;> rfl
  unfold rebuildFromRanges
  rw [key]; rfl

/-! ### Leaf boxes -/

theorem clz_ge {w s : Nat} (v : BitVec w) (hs : s ≤ w) (h : v.toNat < 2 ^ s) : w - s ≤ clz v := by
  unfold clz
  split
  · omega
  · rename_i h0
    have := (Nat.log2_lt h0).2 h
    omega

theorem xor_lt_of_prefix {a b s : Nat} (h : a >>> s = b >>> s) : a ^^^ b < 2 ^ s := by
  have : (a ^^^ b) >>> s = 0 := by rw [Nat.shiftRight_xor_distrib, h, Nat.xor_self]
  rw [Nat.shiftRight_eq_div_pow] at this
  have hp := Nat.two_pow_pos s
  rcases Nat.div_eq_zero_iff.1 this with h | h
  · omega
  · exact h

theorem testBit_shift_eq {a b t : Nat} : a >>> t = b >>> t ↔ ∀ k, t ≤ k → a.testBit k = b.testBit k := by
  constructor
  · intro h k hk
    have := congrArg (fun n => n.testBit (k - t)) h
    simp only [Nat.testBit_shiftRight] at this
    rwa [show t + (k - t) = k by omega] at this
  · intro h
    apply Nat.eq_of_testBit_eq
    intro i
    rw [Nat.testBit_shiftRight, Nat.testBit_shiftRight]
    exact h _ (by omega)

/-- Two codes agree above bit `s` iff the coordinates agree above the corresponding bits. -/
theorem morton_prefix {b c c' x y z x' y' z' s : Nat} (h : IsMorton b c x y z) (h' : IsMorton b c' x' y' z') (hg : InGrid b x y z)
    (hg' : InGrid b x' y' z') :
    c >>> s = c' >>> s ↔ x >>> (s / 3) = x' >>> (s / 3) ∧ y >>> ((s + 1) / 3) = y' >>> ((s + 1) / 3) ∧
      z >>> ((s + 2) / 3) = z' >>> ((s + 2) / 3) := by
  rw [testBit_shift_eq, testBit_shift_eq, testBit_shift_eq, testBit_shift_eq]
  have big : ∀ {u : Nat}, u < 2 ^ b → ∀ k, b ≤ k → u.testBit k = false := fun hu k hk =>
    Nat.testBit_lt_two_pow (lt_of_lt_of_le hu (Nat.pow_le_pow_right (by omega) hk))
  have bigc : ∀ {u : Nat}, u < 2 ^ (3 * b) → ∀ k, 3 * b ≤ k → u.testBit k = false := fun hu k hk =>
    Nat.testBit_lt_two_pow (lt_of_lt_of_le hu (Nat.pow_le_pow_right (by omega) hk))
  constructor
  · intro hc
    refine ⟨?_, ?_, ?_⟩
    · intro k hk
      by_cases hkb : k < b
      · rw [← isMorton_x h k hkb, ← isMorton_x h' k hkb]; exact hc _ (by omega)
      · rw [big hg.1 k (by omega), big hg'.1 k (by omega)]
    · intro k hk
      by_cases hkb : k < b
      · rw [← isMorton_y h k hkb, ← isMorton_y h' k hkb]; exact hc _ (by omega)
      · rw [big hg.2.1 k (by omega), big hg'.2.1 k (by omega)]
    · intro k hk
      by_cases hkb : k < b
      · rw [← isMorton_z h k hkb, ← isMorton_z h' k hkb]; exact hc _ (by omega)
      · rw [big hg.2.2 k (by omega), big hg'.2.2 k (by omega)]
  · rintro ⟨hx, hy, hz⟩ j hj
    by_cases hjb : j < 3 * b
    · obtain ⟨k, hk | hk | hk⟩ : ∃ k, j = 3 * k + 2 ∨ j = 3 * k + 1 ∨ j = 3 * k := ⟨j / 3, by omega⟩
      · rw [hk, isMorton_x h k (by omega), isMorton_x h' k (by omega)]; exact hx k (by omega)
      · rw [hk, isMorton_y h k (by omega), isMorton_y h' k (by omega)]; exact hy k (by omega)
      · rw [hk, isMorton_z h k (by omega), isMorton_z h' k (by omega)]; exact hz k (by omega)
    · rw [bigc (isMorton_lt h) j (by omega), bigc (isMorton_lt h') j (by omega)]

/-- The objects of a leaf are exactly those with some prefix of code. -/
theorem leaf_prefix {n sb : Nat} {code : Nat → BitVec w} {sortMap redMap : List Nat} {nodes : List KNode} {T : KTree} {st : Nat → Nat}
    (H : StructOk n sb code sortMap redMap nodes T st) (hsb : sb < w) (hbits : ∀ i < n, (code i).toNat < 2 ^ sb) (k : Nat)
    (hk : k ≤ nodes.length) : ∃ s pre, s ≤ w ∧ ∀ i < n, i ∈ leafObjs sortMap st k ↔ (code i).toNat >>> s = pre := by
  have hlt := H.lt k hk
  have hle := st_le H (k + 1) (by omega)
  have hobj : ∀ s < n, sortedObj sortMap s < n := by
    intro s hs
    have h1 := sortMap_get H s hs
    have : sortedObj sortMap s ∈ sortMap.take n := by
      rw [List.mem_take_iff_getElem]
      obtain ⟨h2, h3⟩ := List.getElem?_eq_some_iff.1 h1
      exact ⟨s, by omega, h3⟩
    exact List.mem_range.1 (H.perm.mem_iff.1 this)
  have hinv : ∀ i < n, ∃ s < n, sortedObj sortMap s = i := by
    intro i hi
    have := H.perm.mem_iff.2 (List.mem_range.2 hi)
    rw [List.mem_take_iff_getElem] at this
    obtain ⟨s, hs, he⟩ := this
    refine ⟨s, by omega, ?_⟩
    unfold sortedObj
    rw [List.getElem?_eq_getElem (by omega), he]; rfl
  have hs : ∃ s, s ≤ w ∧ clz (code (sortedObj sortMap (st k)) ^^^ code (sortedObj sortMap (st (k + 1) - 1))) = w - s ∧
      (code (sortedObj sortMap (st k))).toNat >>> s = (code (sortedObj sortMap (st (k + 1) - 1))).toNat >>> s := by
    by_cases he : code (sortedObj sortMap (st k)) = code (sortedObj sortMap (st (k + 1) - 1))
    · refine ⟨0, by omega, ?_, by rw [he]⟩
      rw [he]
      unfold clz
      simp
    · obtain ⟨s, s1, s2, s3, s4, _⟩ := clz_prefix _ _ (hbits _ (hobj _ (by omega))) (hbits _ (hobj _ (by omega))) hsb he
      exact ⟨s, by omega, s3, s4⟩
  obtain ⟨s, s1, s2, s3⟩ := hs
  refine ⟨s, (code (sortedObj sortMap (st k))).toNat >>> s, s1, ?_⟩
  intro i hi
  obtain ⟨r, hr, rfl⟩ := hinv i hi
  have hmem : sortedObj sortMap r ∈ leafObjs sortMap st k ↔ st k ≤ r ∧ r < st (k + 1) := by
    unfold leafObjs
    rw [List.mem_map]
    constructor
    · rintro ⟨r', hr', he⟩
      rw [List.mem_range'_1] at hr'
      have hnd : (sortMap.take n).Nodup := H.perm.nodup_iff.2 List.nodup_range
      have g : ∀ u, u < n → (sortMap.take n)[u]? = some (sortedObj sortMap u) := by
        intro u hu; rw [List.getElem?_take, if_pos hu]; exact sortMap_get H u hu
      have hl := sortMap_len H
      have e1 := List.getElem?_eq_some_iff.1 (g r hr)
      have e2 := List.getElem?_eq_some_iff.1 (g r' (by omega))
      obtain ⟨l1, v1⟩ := e1
      obtain ⟨l2, v2⟩ := e2
      have : r = r' := (List.Nodup.getElem_inj_iff hnd).1 (by rw [v1, v2, he])
      omega
    · rintro ⟨h1, h2⟩
      exact ⟨r, by rw [List.mem_range'_1]; omega, rfl⟩
  rw [hmem]
  constructor
  · rintro ⟨h1, h2⟩
    have a1 := H.sorted (st k) r h1 hr
    have a2 := H.sorted r (st (k + 1) - 1) (by omega) (by omega)
    exact prefix_between s3 (le_trans (min_le_left _ _) a1) (le_trans a2 (le_max_right _ _))
  · intro hpre
    by_contra hc
    have := H.radix k hk (st k) (st (k + 1) - 1) r hr (le_refl _) hlt (by omega) (by omega) hc
    rw [s2] at this
    have h2 := clz_ge (code (sortedObj sortMap (st k)) ^^^ code (sortedObj sortMap r)) s1 (by
      rw [BitVec.toNat_xor]; exact xor_lt_of_prefix hpre.symm)
    omega

/-- C52 (leaf boxes). With positions (each object a point): the boxes of two different leaves have no point in common, whatever the
positions, the rounding, the compression level and the schedules. In particular an object is in the box of its own leaf only. -/
theorem C52_leaf_boxes_disjoint (H : BVHIn A C env big small pmin pmin P P objCnt lo hi) (level : Nat) (t : BVH F)
    (ht : rebuildFromPositions A C env big small pmin objCnt lo hi level = .ok t) (k k' : Nat) (a b a' b' p : V3 F)
    (hk : k ≤ t.nodes.length) (hk' : k' ≤ t.nodes.length) (ha : t.bmin[t.nodes.length + k]? = some a) (hb : t.bmax[t.nodes.length + k]? = some b)
    (ha' : t.bmin[t.nodes.length + k']? = some a') (hb' : t.bmax[t.nodes.length + k']? = some b') (hin : BoxIn p p a b)
    (hin' : BoxIn p p a' b') : k = k' := by
  obtain ⟨t', T, st, h1, h2, h3, h4, h5⟩ := rebuild_ok H level
  unfold rebuildFromPositions at ht
  rw [ht, Res.ok.injEq] at h1
  subst h1
  obtain ⟨hsb, henc⟩ := H.code
  have hbits : ∀ i < objCnt.toNat, ((mortonOf A C lo hi (P i)).getD 0#w).toNat < 2 ^ (3 * C.bits) := by
    intro i _
    obtain ⟨x, y, z, _, _, _, hg, h⟩ := mortonOf_some H (P i)
    rw [h]; exact isMorton_lt (henc x y z hg)
  -- a point of the box of a leaf has the prefix of the leaf
  have key : ∀ j a b s pre, j ≤ t.nodes.length → t.bmin[t.nodes.length + j]? = some a → t.bmax[t.nodes.length + j]? = some b →
      (∀ i < objCnt.toNat, i ∈ leafObjs t.sortMap st j ↔ ((mortonOf A C lo hi (P i)).getD 0#w).toNat >>> s = pre) → BoxIn p p a b →
      ((mortonOf A C lo hi p).getD 0#w).toNat >>> s = pre := by
    intro j a b s pre hj ha hb hpre hin
    obtain ⟨a1, b1, g1, g2, g3⟩ := h5 (.leaf j) (whole_subtree_leaf h2.whole j hj)
    rw [show cellIdx t.nodes.length (KTree.leaf j).ref = t.nodes.length + j by simp [KTree.ref, cellIdx, Nat.add_comm]] at g1 g2
    rw [ha, Option.some.injEq] at g1
    rw [hb, Option.some.injEq] at g2
    subst g1 g2
    simp only [KTree.leaves, List.flatMap_cons, List.flatMap_nil, List.append_nil] at g3
    obtain ⟨⟨lx, ly, lz⟩, ⟨ux, uy, uz⟩⟩ := g3
    obtain ⟨⟨p1, p2, p3⟩, ⟨q1, q2, q3⟩⟩ := hin
    obtain ⟨x, y, z, ex, ey, ez, hg, hm⟩ := mortonOf_some H p
    -- any object of the leaf
    have hobj : ∀ i ∈ leafObjs t.sortMap st j, ∃ x' y' z', gridCoord A C.bits lo.x hi.x (P i).x = some x' ∧
        gridCoord A C.bits lo.y hi.y (P i).y = some y' ∧ gridCoord A C.bits lo.z hi.z (P i).z = some z' ∧ InGrid C.bits x' y' z' ∧
        (C.enc x' y' z').toNat >>> s = pre := by
      intro i hi'
      obtain ⟨x', y', z', ex', ey', ez', hg', hm'⟩ := mortonOf_some H (P i)
      have := (hpre i (mem_leafObjs_lt h2 j hj i hi')).1 hi'
      rw [hm'] at this
      exact ⟨x', y', z', ex', ey', ez', hg', this⟩
    have hsame : ∀ {x1 y1 z1 x2 y2 z2 : Nat}, InGrid C.bits x1 y1 z1 → InGrid C.bits x2 y2 z2 → (C.enc x1 y1 z1).toNat >>> s = pre →
        (C.enc x2 y2 z2).toNat >>> s = pre → x1 >>> (s / 3) = x2 >>> (s / 3) ∧ y1 >>> ((s + 1) / 3) = y2 >>> ((s + 1) / 3) ∧
          z1 >>> ((s + 2) / 3) = z2 >>> ((s + 2) / 3) := by
      intro x1 y1 z1 x2 y2 z2 g1 g2 e1 e2
      exact (morton_prefix (henc _ _ _ g1) (henc _ _ _ g2) g1 g2).1 (e1.trans e2.symm)
    rw [hm]
    show (C.enc x y z).toNat >>> s = pre
    obtain ⟨i1, m1, v1⟩ := lx.2
    obtain ⟨i2, m2, v2⟩ := ux.2
    obtain ⟨i3, m3, v3⟩ := ly.2
    obtain ⟨i4, m4, v4⟩ := uy.2
    obtain ⟨i5, m5, v5⟩ := lz.2
    obtain ⟨i6, m6, v6⟩ := uz.2
    obtain ⟨x1, y1, z1, ex1, ey1, ez1, g1, c1⟩ := hobj i1 m1
    obtain ⟨x2, y2, z2, ex2, ey2, ez2, g2, c2⟩ := hobj i2 m2
    obtain ⟨x3, y3, z3, ex3, ey3, ez3, g3, c3⟩ := hobj i3 m3
    obtain ⟨x4, y4, z4, ex4, ey4, ez4, g4, c4⟩ := hobj i4 m4
    obtain ⟨x5, y5, z5, ex5, ey5, ez5, g5, c5⟩ := hobj i5 m5
    obtain ⟨x6, y6, z6, ex6, ey6, ez6, g6, c6⟩ := hobj i6 m6
    have bx1 := gridCoord_mono H.boxx (le_of_eq_of_le v1 p1) ex1 ex
    have bx2 := gridCoord_mono H.boxx (le_of_le_of_eq q1 v2.symm) ex ex2
    have by1 := gridCoord_mono H.boxy (le_of_eq_of_le v3 p2) ey3 ey
    have by2 := gridCoord_mono H.boxy (le_of_le_of_eq q2 v4.symm) ey ey4
    have bz1 := gridCoord_mono H.boxz (le_of_eq_of_le v5 p3) ez5 ez
    have bz2 := gridCoord_mono H.boxz (le_of_le_of_eq q3 v6.symm) ez ez6
    have rx := prefix_between (hsame g1 g2 c1 c2).1 (le_trans (min_le_left _ _) bx1) (le_trans bx2 (le_max_right _ _))
    have ry := prefix_between (hsame g3 g4 c3 c4).2.1 (le_trans (min_le_left _ _) by1) (le_trans by2 (le_max_right _ _))
    have rz := prefix_between (hsame g5 g6 c5 c6).2.2 (le_trans (min_le_left _ _) bz1) (le_trans bz2 (le_max_right _ _))
    refine Eq.trans ((morton_prefix (henc _ _ _ hg) (henc _ _ _ g1) hg g1).2 ⟨rx, ?_, ?_⟩) c1
    · exact ry.trans (hsame g3 g1 c3 c1).2.1
    · exact rz.trans (hsame g5 g1 c5 c1).2.2
  obtain ⟨s, pre, _, hpre⟩ := leaf_prefix h2 hsb hbits k hk
  obtain ⟨s', pre', _, hpre'⟩ := leaf_prefix h2 hsb hbits k' hk'
  have e1 := key k a b s pre hk ha hb hpre hin
  have e2 := key k' a' b' s' pre' hk' ha' hb' hpre' hin'
  obtain ⟨i, hi'⟩ := List.exists_mem_of_ne_nil _ (leafObjs_ne h2 k hk)
  obtain ⟨i', hi''⟩ := List.exists_mem_of_ne_nil _ (leafObjs_ne h2 k' hk')
  have hin := mem_leafObjs_lt h2 k hk i hi'
  have hin' := mem_leafObjs_lt h2 k' hk' i' hi''
  have f1 := (hpre i hin).1 hi'
  have f2 := (hpre' i' hin').1 hi''
  have coarser : ∀ {u v s s' : Nat}, u >>> s = v >>> s → s ≤ s' → u >>> s' = v >>> s' := by
    intro u v s s' h hle
    rw [show s' = s + (s' - s) by omega, Nat.shiftRight_add, Nat.shiftRight_add, h]
  have hshare : ∃ o < objCnt.toNat, o ∈ leafObjs t.sortMap st k ∧ o ∈ leafObjs t.sortMap st k' := by
    rcases Nat.le_total s s' with hle | hle
    · exact ⟨i, hin, hi', (hpre' i hin).2 ((coarser (f1.trans e1.symm) hle).trans e2)⟩
    · exact ⟨i', hin', (hpre i' hin').2 ((coarser (f2.trans e2.symm) hle).trans e1), hi''⟩
  obtain ⟨o, _, o1, o2⟩ := hshare
  have hdisj : ((List.range (t.nodes.length + 1)).flatMap (leafObjs t.sortMap st)).Nodup := (all_objs h2).nodup_iff.2 List.nodup_range
  rw [List.nodup_flatMap] at hdisj
  by_contra hne
  have hp := hdisj.2
  rw [List.pairwise_iff_getElem] at hp
  rcases Nat.lt_or_gt_of_ne hne with hlt | hlt
  · have := hp k k' (by simp; omega) (by simp; omega) hlt
    simp only [List.getElem_range, Function.onFun] at this
    exact this o1 o2
  · have := hp k' k (by simp; omega) (by simp; omega) hlt
    simp only [List.getElem_range, Function.onFun] at this
    exact this o2 o1

end

/-! ### A concrete build -/

/-- Integer coordinates, truncated division. -/
def bxArith : GridArith Int where
  sub a b := a - b
  div a b := a / b
  ofNat n := n
  conv a := if 0 ≤ a ∧ a < 2 ^ 16 then some a.toNat else none
  goodFact f := 0 < f
  sub_mono c a b h := by omega
  div_mono f a b hf h := Int.ediv_le_ediv hf h
  conv_mono a b x y h hx hy := by
    split at hx <;> simp at hx
    split at hy <;> simp at hy
    omega
  conv_between a b c h1 h2 ha hc := by
    split at ha
    · split at hc
      · rw [if_pos (by omega)]; rfl
      · simp at hc
    · simp at ha

def bxPos : List (V3 Int) := [⟨10, 20, 30⟩, ⟨5000, 5100, 90⟩, ⟨12, 22, 30⟩, ⟨9000, 8000, -5⟩, ⟨4000, 100, 7000⟩]

def bxEnv : BVHEnv Int :=
  ⟨fun _ _ => [1, 0, 0], [7#32], fun _ => 3, [4, 2, 0, 1, 3], List.replicate 32 [1, 0], List.replicate 32 [2, 0, 1], fun _ => ⟨0, 0, 0⟩,
    fun _ => ⟨9, 9, 9⟩⟩

/-- Five objects, one of them outside of the bounding box, meet the hypotheses. -/
theorem bx_in : BVHIn bxArith mcode32 bxEnv 100000 (-100000) bxPos bxPos (fun i => bxPos.getD i ⟨0, 0, 0⟩) (fun i => bxPos.getD i ⟨0, 0, 0⟩)
    5#32 ⟨0, 0, 0⟩ ⟨8192, 8192, 8192⟩ where
  code := mcode32_ok
  boxx := by
    refine ⟨by decide, ?_, by decide +kernel, by decide +kernel⟩
    show (0 : Int) < _
    decide +kernel
  boxy := by
    refine ⟨by decide, ?_, by decide +kernel, by decide +kernel⟩
    show (0 : Int) < _
    decide +kernel
  boxz := by
    refine ⟨by decide, ?_, by decide +kernel, by decide +kernel⟩
    show (0 : Int) < _
    decide +kernel
  pos := by decide
  lim := by decide
  lower := by decide
  upper := by decide
  below := by decide
  above := by decide
  order := by decide
  launchMin := by decide
  launchMax := by decide

/-- The build of these objects, and a search that rejects the boxes that do not meet `x ≤ 4500`: objects 0, 2 and 4, in tree order. -/
example : (match rebuildFromPositions bxArith mcode32 bxEnv 100000 (-100000) bxPos 5#32 ⟨0, 0, 0⟩ ⟨8192, 8192, 8192⟩ 0 with
    | .ok t => rtreeFor mcode32 t (fun _ a _ => decide (a.x ≤ 4500))
    | _ => none) = some [0, 2, 4] := by decide +kernel

end Shamrock
