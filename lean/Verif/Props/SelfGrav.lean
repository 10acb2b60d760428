import Verif.Proof.SGMain
import Verif.Proof.DTTWithin
/-!
C69: the fast multipole self gravity of a patch, on the tree that `rebuild_from_positions` builds of its particles.
-/
namespace Shamrock.SelfGrav

open Shamrock Shamrock.Fmm

noncomputable section

/-- `Q` holds the mass moments, up to the order of the collection, of the sources about `s`. -/
def IsMomentsOf : (k : Fin 5) → (fmmOps k).Mass → Sources → V3 ℝ → Prop
  | 0 => IsMoments0
  | 1 => IsMoments1
  | 2 => IsMoments2
  | 3 => IsMoments3
  | 4 => IsMoments4

theorem isMomentsOf_eq : ∀ k : Fin 5, (fmmLaws k).isM = IsMomentsOf k
  | 0 => rfl
  | 1 => rfl
  | 2 => rfl
  | 3 => rfl
  | 4 => rfl

variable {w : Nat} {A : GridArith ℝ} {C : MCode w} {env : BVHEnv ℝ} {big small : ℝ} {pos : List (V3 ℝ)} {P : Nat → V3 ℝ}
  {cnt : BitVec 32} {lo hi : V3 ℝ} {t : BVH ℝ} {theta : ℝ}

/-- C69 (upward pass). After `compute_tree_mass_moments`, the entry of each cell of the tree holds the moments, about the center of its
box, of the particles it contains, for every schedule of the launches and whatever the new buffer contained. -/
theorem C69_tree_moments (k : Fin 5) (H : BVHIn A C env big small pos pos P P cnt lo hi) (level : Nat)
    (ht : rebuildFromPositions A C env big small pos cnt lo hi level = .ok t) (m : ℝ) (scheds : List (List Nat))
    (hs : scheds.length = karrasTreeDepth w) (old : Nat → (fmmOps k).Mass) :
    ∃ moms, treeMoments (fmmOps k) t pos m scheds old = some moms ∧ moms.length = 2 * t.nodes.length + 1 ∧
      ∀ c < 2 * t.nodes.length + 1, ∃ q b, moms[c]? = some q ∧ cellBox t c = some b ∧
        IsMomentsOf k q ((objsIn t c).map fun i => (m, P i)) (center b) := by
  unfold rebuildFromPositions at ht
  obtain ⟨T, st, bx, D, K, _⟩ := dttIn_of_build H level ht
  have hb := H.code.1
  have hd := K.depth
  obtain ⟨moms, e1, e2, e3⟩ := treeMoments_ok (m := m) (fmmLaws k) D K H.lower scheds (by rw [hs]; unfold karrasTreeDepth; omega) old
  refine ⟨moms, e1, e2, ?_⟩
  intro c hc
  obtain ⟨S, hS, rfl⟩ := (whole_cells D.whole c).1 hc
  obtain ⟨q, q1, q2⟩ := e3 S hS
  refine ⟨q, bx S, q1, D.box S hS, ?_⟩
  rw [isMomentsOf_eq, ctr_box (D.box S hS)] at q2
  rw [(objs_ok K hS).2]
  exact q2

/-- Two cells of a tree with distinct leaves: the one that has the leaves of the other is above it. -/
theorem subtree_of_leaves : ∀ T : KTree, T.leaves.Nodup → ∀ A ∈ T.subtrees, ∀ S ∈ T.subtrees, (∀ k ∈ S.leaves, k ∈ A.leaves) →
    S ∈ A.subtrees := by
  intro T
  induction T with
  | leaf k =>
    intro _ A hA S hS _
    rw [List.mem_singleton.1 hA, List.mem_singleton.1 hS]
    exact self_mem_subtrees _
  | node i l r ihl ihr =>
    intro hn A hA S hS h
    have hn' : l.leaves.Nodup ∧ r.leaves.Nodup ∧ ∀ a ∈ l.leaves, ∀ b ∈ r.leaves, a ≠ b := List.nodup_append.1 hn
    have hsub : ∀ R ∈ (KTree.node i l r).subtrees, R = KTree.node i l r ∨ R ∈ l.subtrees ∨ R ∈ r.subtrees := by
      intro R hR
      rcases List.mem_cons.1 hR with h | h
      · exact Or.inl h
      · exact Or.inr (List.mem_append.1 h)
    have hlv : ∀ (U R : KTree), R ∈ U.subtrees → ∀ k ∈ R.leaves, k ∈ U.leaves := by
      intro U R hR k hk
      exact (leaves_subtrees U k).1 (subtrees_trans U R _ hR ((leaves_subtrees R k).2 hk))
    obtain ⟨kl, hkl⟩ := List.exists_mem_of_ne_nil _ (leaves_ne l)
    obtain ⟨kr, hkr⟩ := List.exists_mem_of_ne_nil _ (leaves_ne r)
    obtain ⟨ks, hks⟩ := List.exists_mem_of_ne_nil _ (leaves_ne S)
    rcases hsub A hA with rfl | hA | hA
    · exact hS
    · rcases hsub S hS with rfl | hS | hS
      · exact absurd rfl (hn'.2.2 kr (hlv l A hA kr (h kr (List.mem_append.2 (Or.inr hkr)))) kr hkr)
      · exact ihl hn'.1 A hA S hS h
      · exact absurd rfl (hn'.2.2 ks (hlv l A hA ks (h ks hks)) ks (hlv r S hS ks hks))
    · rcases hsub S hS with rfl | hS | hS
      · exact absurd rfl (hn'.2.2 kl hkl kl (hlv r A hA kl (h kl (List.mem_append.2 (Or.inl hkl)))))
      · exact absurd rfl (hn'.2.2 ks (hlv l S hS ks hks) ks (hlv r A hA ks (h ks hks)))
      · exact ihr hn'.2.1 A hA S hS h

/-- C69 (downward pass). After the L2L launches, evaluating the expansion of a cell at any point gives the sum of the values there of the
expansions that the cell and the cells above it had before; every cell is counted once, in every schedule. -/
theorem C69_downward_pass (k : Fin 5) (H : BVHIn A C env big small pos pos P P cnt lo hi) (level : Nat)
    (ht : rebuildFromPositions A C env big small pos cnt lo hi level = .ok t) (scheds : List (List Nat))
    (hs : scheds.length = karrasTreeDepth w) (own : List (fmmOps k).Grav) (hlen : own.length = 2 * t.nodes.length + 1) :
    ∃ grav, gravDown (fmmOps k) t scheds own = some grav ∧ grav.length = 2 * t.nodes.length + 1 ∧
      ∀ c < 2 * t.nodes.length + 1, ∃ (v : (fmmOps k).Grav) (path : List Nat), grav[c]? = some v ∧ path.Nodup ∧
        (∀ a, a ∈ path ↔ a < 2 * t.nodes.length + 1 ∧ ∀ i ∈ objsIn t c, i ∈ objsIn t a) ∧
        ∀ x i, Fmm.ix ((fmmOps k).contract ((fmmOps k).fromVec (x - ctr t c)) v) i =
          (path.map fun a => Fmm.ix ((fmmOps k).contract ((fmmOps k).fromVec (x - ctr t a)) (own[a]?.getD (fmmOps k).zeroG)) i).sum := by
  unfold rebuildFromPositions at ht
  obtain ⟨T, st, bx, D, K, _⟩ := dttIn_of_build H level ht
  have hb := H.code.1
  have hd := K.depth
  obtain ⟨grav, e1, e2, e3⟩ := gravDown_ok (fmmLaws k) D scheds (by rw [hs]; unfold karrasTreeDepth; omega) own hlen
  refine ⟨grav, e1, e2, ?_⟩
  intro c hc
  obtain ⟨S, hS, rfl⟩ := (whole_cells D.whole c).1 hc
  obtain ⟨v, path, v1, v2, v3, v4⟩ := e3 S hS
  refine ⟨v, pathCells t path, v1, ?_, ?_, ?_⟩
  · refine List.Nodup.map_on ?_ v2
    intro a ha b hb hab
    exact idx_inj D.whole ((v3 a).1 ha).1 ((v3 b).1 hb).1 hab
  · intro a
    constructor
    · intro ha
      obtain ⟨R, hR, rfl⟩ := List.mem_map.1 ha
      obtain ⟨r1, r2⟩ := (v3 R).1 hR
      refine ⟨idx_lt D.whole r1, ?_⟩
      rw [(objs_ok K hS).2, (objs_ok K r1).2]
      exact sub_objs R S r2 _ _
    · rintro ⟨ha, hsub⟩
      obtain ⟨R, hR, rfl⟩ := (whole_cells D.whole a).1 ha
      rw [(objs_ok K hS).2, (objs_ok K hR).2] at hsub
      refine List.mem_map.2 ⟨R, (v3 R).2 ⟨hR, ?_⟩, rfl⟩
      refine subtree_of_leaves T (by rw [whole_leaves D.whole]; exact List.nodup_range) R hR S hS ?_
      intro l hl
      have hf := first_mem K l (subtree_leaf_le K S hS l hl)
      obtain ⟨l', hl', h2⟩ := List.mem_flatMap.1 (hsub _ (List.mem_flatMap.2 ⟨l, hl, hf⟩))
      rw [leafObjs_inj K _ l l' (subtree_leaf_le K S hS l hl) (subtree_leaf_le K R hR l' hl') hf h2]
      exact hl'
  · intro x i
    have := v4 x i
    unfold pathCells
    rw [List.map_map]
    exact this

/-- C69 (criterion). The opening criterion accepts two boxes when their centers differ and the sum of their largest half sides is less
than `theta` times the distance of the centers. -/
theorem C69_criterion (hth : 0 ≤ theta) (a b : V3 ℝ × V3 ℝ) (ha : a.1.x ≤ a.2.x) (hb : b.1.x ≤ b.2.x) :
    macStd theta a b = true ↔ center a ≠ center b ∧
      max (max (a.2.x - a.1.x) (a.2.y - a.1.y)) (a.2.z - a.1.z) / 2 + max (max (b.2.x - b.1.x) (b.2.y - b.1.y)) (b.2.z - b.1.z) / 2 <
        theta * Real.sqrt (((center a).x - (center b).x) ^ 2 + ((center a).y - (center b).y) ^ 2 + ((center a).z - (center b).z) ^ 2) := by
  obtain ⟨d, hd⟩ : ∃ d, d = ((center a).x - (center b).x) ^ 2 + ((center a).y - (center b).y) ^ 2 + ((center a).z - (center b).z) ^ 2 := ⟨_, rfl⟩
  obtain ⟨s, hs⟩ : ∃ s, s = max (max (a.2.x - a.1.x) (a.2.y - a.1.y)) (a.2.z - a.1.z) / 2 +
    max (max (b.2.x - b.1.x) (b.2.y - b.1.y)) (b.2.z - b.1.z) / 2 := ⟨_, rfl⟩
  have hs0 : 0 ≤ s := by
    have h1 : a.2.x - a.1.x ≤ max (max (a.2.x - a.1.x) (a.2.y - a.1.y)) (a.2.z - a.1.z) := le_trans (le_max_left _ _) (le_max_left _ _)
    have h2 : b.2.x - b.1.x ≤ max (max (b.2.x - b.1.x) (b.2.y - b.1.y)) (b.2.z - b.1.z) := le_trans (le_max_left _ _) (le_max_left _ _)
    rw [hs]; linarith
  have hd0 : 0 ≤ d := by rw [hd]; positivity
  have hm : ∀ u v x : ℝ, max (max (u / 2) (v / 2)) (x / 2) = max (max u v) x / 2 := by
    intro u v x
    rw [max_div_div_right (by norm_num), max_div_div_right (by norm_num)]
  have hcen : center a = center b ↔ d = 0 := by
    constructor
    · intro h; rw [hd, h]; ring
    · intro h
      rw [hd] at h
      have e1 := sq_nonneg ((center a).x - (center b).x)
      have e2 := sq_nonneg ((center a).y - (center b).y)
      have e3 := sq_nonneg ((center a).z - (center b).z)
      have f1 : (center a).x - (center b).x = 0 := pow_eq_zero_iff (two_ne_zero) |>.1 (by linarith)
      have f2 : (center a).y - (center b).y = 0 := pow_eq_zero_iff (two_ne_zero) |>.1 (by linarith)
      have f3 : (center a).z - (center b).z = 0 := pow_eq_zero_iff (two_ne_zero) |>.1 (by linarith)
      calc center a = ⟨(center a).x, (center a).y, (center a).z⟩ := rfl
        _ = ⟨(center b).x, (center b).y, (center b).z⟩ := by rw [sub_eq_zero.1 f1, sub_eq_zero.1 f2, sub_eq_zero.1 f3]
        _ = center b := rfl
  have hcode : macStd theta a b = if d = 0 then false else decide (s * s / d < theta * theta) := by
    have k1 : d = ((a.2.x + a.1.x) / 2 - (b.2.x + b.1.x) / 2) * ((a.2.x + a.1.x) / 2 - (b.2.x + b.1.x) / 2) +
      ((a.2.y + a.1.y) / 2 - (b.2.y + b.1.y) / 2) * ((a.2.y + a.1.y) / 2 - (b.2.y + b.1.y) / 2) +
      ((a.2.z + a.1.z) / 2 - (b.2.z + b.1.z) / 2) * ((a.2.z + a.1.z) / 2 - (b.2.z + b.1.z) / 2) := by
      rw [hd]; unfold center; ring
    have k2 : s = max (max ((a.2.x - a.1.x) / 2) ((a.2.y - a.1.y) / 2)) ((a.2.z - a.1.z) / 2) +
        max (max ((b.2.x - b.1.x) / 2) ((b.2.y - b.1.y) / 2)) ((b.2.z - b.1.z) / 2) := by rw [hm, hm]; exact hs
    rw [k1, k2]
    rfl
  rw [hcode, ← hd, ← hs, Ne, hcen]
  by_cases h0 : d = 0
  · rw [if_pos h0]; simp [h0]
  · rw [if_neg h0, decide_eq_true_eq]
    have hdp : 0 < d := lt_of_le_of_ne hd0 (Ne.symm h0)
    rw [div_lt_iff₀ hdp]
    constructor
    · intro h
      refine ⟨h0, ?_⟩
      refine lt_of_mul_self_lt_mul_self₀ (by positivity) ?_
      calc s * s < theta * theta * d := h
        _ = theta * Real.sqrt d * (theta * Real.sqrt d) := by
          have := Real.mul_self_sqrt hd0
          nlinarith [this]
    · rintro ⟨_, h⟩
      calc s * s < theta * Real.sqrt d * (theta * Real.sqrt d) := mul_self_lt_mul_self hs0 h
        _ = theta * theta * d := by
          have := Real.mul_self_sqrt hd0
          nlinarith [this]

example : macStd (1 / 2) (⟨0, 0, 0⟩, ⟨1, 1, 1⟩) (⟨9, 0, 0⟩, ⟨10, 1, 1⟩) = true ∧ macStd (1 / 2) (⟨0, 0, 0⟩, ⟨1, 1, 1⟩) (⟨1, 0, 0⟩, ⟨2, 1, 1⟩) = false := by
  constructor
  · rw [C69_criterion (by norm_num) _ _ (by norm_num) (by norm_num)]
    refine ⟨fun h => ?_, ?_⟩
    · have := congrArg V3.x h
      unfold center at this
      norm_num at this
    · unfold center
      norm_num
      rw [show (81 : ℝ) = 9 ^ 2 by norm_num, Real.sqrt_sq (by norm_num)]
      norm_num
  · rw [← Bool.not_eq_true, C69_criterion (by norm_num) _ _ (by norm_num) (by norm_num), not_and]
    intro _
    unfold center
    norm_num

/-- What the execution environment may choose freely: the schedules of the launches, one per level, and the orders of execution. -/
structure SGRun {O : FmmOps} (w : Nat) (t : BVH ℝ) (n : Nat) (env : SGEnv O) : Prop where
  up : env.up.length = karrasTreeDepth w
  down : env.down.length = karrasTreeDepth w
  leaves : env.orderL2P.Perm (List.range (t.nodes.length + 1))
  invert : ∀ inc, incidences t = some inc → ReorderOrders env.invert n inc.length

/-- C69 (solver). For every order of the expansion, every set of particles and every schedule: with the interaction lists of the reference
traversal, in the grouped form in which the traversals give them, the acceleration of particle `i` grows by `G m Σ_j F i j`, where each
`F i j` — each pair exactly once — is either the softened field of `j` at `i` (if their cells are in the list of the direct pairs), or the
Taylor expansion of the field between the centers of two cells that satisfy the opening criterion. Nothing is read or written out of
bounds. -/
theorem C69_sgsfmm (k : Fin 5) (H : BVHIn A C env big small pos pos P P cnt lo hi) (level : Nat)
    (ht : rebuildFromPositions A C env big small pos cnt lo hi level = .ok t) (hw : w ≤ 64) (low : Bool) (ref : Inter)
    (href : dttReference low (macStd theta) t = some ref) (o : DTTOrdered)
    (hM : GroupedBy (2 * t.nodes.length + 1) ref.1 o.m2l o.offM2l) (hP : GroupedBy (2 * t.nodes.length + 1) ref.2 o.p2p o.offP2p)
    (sortRange : Nat → Nat → List (Nat × Nat) → Option (List (Nat × Nat))) (hsr : SortsRanges pair2Lt sortRange)
    (genv : SGEnv (fmmOps k)) (hg : SGRun w t cnt.toNat genv) (G m eps : ℝ) (heps : eps ≠ 0) (acc : List (V3 ℝ)) (hacc : acc.length = cnt.toNat) :
    ∃ (acc' : List (V3 ℝ)) (F : Nat → Nat → Fin 3 → ℝ),
      sgsfmm (fmmOps k) sortRange genv t o pos cnt.toNat G m eps acc = some acc' ∧ acc'.length = cnt.toNat ∧
      (∀ i < cnt.toNat, ∀ j < cnt.toNat, FarPair t theta (k.val + 1) P ref.1 i j (F i j) ∨ NearPair t eps P ref.2 i j (F i j)) ∧
      ∀ i < cnt.toNat, ∀ a, acc[i]? = some a → ∃ a', acc'[i]? = some a' ∧ ∀ c, Fmm.ix a' c =
        Fmm.ix a c + G * m * ((List.range cnt.toNat).map fun j => F i j c).sum := by
  unfold rebuildFromPositions at ht
  obtain ⟨T, st, bx, D, K, _⟩ := dttIn_of_build H level ht
  rw [dttReference_ok D low (macStd theta), Option.some.injEq] at href
  have hb := H.code.1
  have hd := K.depth
  have hlt := outOf_lt D low (macStd theta)
  have hspec := dttOut_spec D K low (macStd theta)
  rw [href] at hlt hspec
  have hR := hg.invert _ (incidences_ok K)
  refine sgsfmm_core (fmmLaws k) D K H.lower low hspec hlt hM hP sortRange hsr genv (by rw [hg.up]; unfold karrasTreeDepth; omega)
    (by rw [hg.down]; unfold karrasTreeDepth; omega) hg.leaves ?_ hR.count hR.scatter hR.segs heps acc hacc
  have h1 := inc_length K
  have h2 := H.lim
  have h3 : T.depth + 1 ≤ 64 := by omega
  calc (incPairs t).length ≤ cnt.toNat * (T.depth + 1) := h1
    _ ≤ (2 ^ 24 + 1) * 64 := Nat.mul_le_mul h2 h3
    _ < 2 ^ 32 := by norm_num

/-- C69 (solver, with its traversal). The same for the traversal with one work item per cell: the tree, the traversal and the forces. -/
theorem C69_sgsfmm_select (k : Fin 5) (H : BVHIn A C env big small pos pos P P cnt lo hi) (level : Nat)
    (ht : rebuildFromPositions A C env big small pos cnt lo hi level = .ok t) (hw : w ≤ 64) (low : Bool) (ref : Inter)
    (href : dttReference low (macStd theta) t = some ref) (hsz : ref.1.length + ref.2.length < 2 ^ 32) (junk : Nat → Nat × Nat)
    (order : List Nat) (hord : order.Perm (List.range (2 * t.nodes.length + 1)))
    (sortRange : Nat → Nat → List (Nat × Nat) → Option (List (Nat × Nat))) (hsr : SortsRanges pair2Lt sortRange)
    (genv : SGEnv (fmmOps k)) (hg : SGRun w t cnt.toNat genv) (G m eps : ℝ) (heps : eps ≠ 0) (acc : List (V3 ℝ)) (hacc : acc.length = cnt.toNat) :
    ∃ (o : DTTOrdered) (acc' : List (V3 ℝ)) (F : Nat → Nat → Fin 3 → ℝ), dttSelect low (macStd theta) t (3 * C.bits + 2) junk order = some o ∧
      sgsfmm (fmmOps k) sortRange genv t o pos cnt.toNat G m eps acc = some acc' ∧ acc'.length = cnt.toNat ∧
      (∀ i < cnt.toNat, ∀ j < cnt.toNat, FarPair t theta (k.val + 1) P ref.1 i j (F i j) ∨ NearPair t eps P ref.2 i j (F i j)) ∧
      ∀ i < cnt.toNat, ∀ a, acc[i]? = some a → ∃ a', acc'[i]? = some a' ∧ ∀ c, Fmm.ix a' c =
        Fmm.ix a c + G * m * ((List.range cnt.toNat).map fun j => F i j c).sum := by
  obtain ⟨o, o1, o2, o3⟩ := C53_select H level ht low (macStd theta) ref href hsz (by omega) junk order hord
  obtain ⟨acc', F, h1, h2, h3, h4⟩ := C69_sgsfmm k H level ht hw low ref href o o2 o3 sortRange hsr genv hg G m eps heps acc hacc
  exact ⟨o, acc', F, o1, h1, h2, h3, h4⟩

/-- No pair of boxes is accepted when the opening angle is zero. -/
theorem macStd_zero (a b : V3 ℝ × V3 ℝ) : macStd 0 a b = false := by
  unfold macStd
  simp only
  split
  · rfl
  · rw [decide_eq_false_iff_not, not_lt, zero_mul]
    refine div_nonneg (mul_self_nonneg _) ?_
    exact add_nonneg (add_nonneg (mul_self_nonneg _) (mul_self_nonneg _)) (mul_self_nonneg _)

/-- C69 (opening angle zero). Then the solver is the direct softened sum over all the particles, whatever the order. -/
theorem C69_theta_zero (k : Fin 5) (H : BVHIn A C env big small pos pos P P cnt lo hi) (level : Nat)
    (ht : rebuildFromPositions A C env big small pos cnt lo hi level = .ok t) (hw : w ≤ 64) (low : Bool) (ref : Inter)
    (href : dttReference low (macStd 0) t = some ref) (o : DTTOrdered)
    (hM : GroupedBy (2 * t.nodes.length + 1) ref.1 o.m2l o.offM2l) (hP : GroupedBy (2 * t.nodes.length + 1) ref.2 o.p2p o.offP2p)
    (sortRange : Nat → Nat → List (Nat × Nat) → Option (List (Nat × Nat))) (hsr : SortsRanges pair2Lt sortRange)
    (genv : SGEnv (fmmOps k)) (hg : SGRun w t cnt.toNat genv) (G m eps : ℝ) (heps : eps ≠ 0) (acc : List (V3 ℝ)) (hacc : acc.length = cnt.toNat) :
    ∃ acc', sgsfmm (fmmOps k) sortRange genv t o pos cnt.toNat G m eps acc = some acc' ∧ acc'.length = cnt.toNat ∧
      ∀ i < cnt.toNat, ∀ a, acc[i]? = some a → ∃ a', acc'[i]? = some a' ∧ ∀ c, Fmm.ix a' c =
        Fmm.ix a c + G * m * ((List.range cnt.toNat).map fun j => plummer eps (P i) (P j) c).sum := by
  obtain ⟨acc', F, h1, h2, h3, h4⟩ := C69_sgsfmm k H level ht hw low ref href o hM hP sortRange hsr genv hg G m eps heps acc hacc
  refine ⟨acc', h1, h2, ?_⟩
  intro i hi a ha
  obtain ⟨a', q1, q2⟩ := h4 i hi a ha
  refine ⟨a', q1, ?_⟩
  intro c
  rw [q2 c]
  congr 3
  apply List.map_congr_left
  intro j hj
  rcases h3 i hi j (List.mem_range.1 hj) with ⟨ab, _, _, _, ba, bb, _, _, hmac, _⟩ | ⟨ab, _, _, _, hF⟩
  · rw [macStd_zero] at hmac; exact absurd hmac (by simp)
  · exact hF c

/-- There are at most as many interactions as pairs of particles. -/
theorem inter_le (H : BVHIn A C env big small pos pos P P cnt lo hi) (level : Nat)
    (ht : rebuildFromPositions A C env big small pos cnt lo hi level = .ok t) (low : Bool) (mac : Mac ℝ) (ref : Inter)
    (href : dttReference low mac t = some ref) : ref.1.length + ref.2.length ≤ cnt.toNat * cnt.toNat := by
  unfold rebuildFromPositions at ht
  obtain ⟨T, st, bx, D, K, _⟩ := dttIn_of_build H level ht
  rw [dttReference_ok D low mac, Option.some.injEq] at href
  have hlt := outOf_lt D low mac
  have hspec := dttOut_spec D K low mac
  rw [href] at hlt hspec
  have hl := hspec.cover.length_eq
  have hR : ∀ X Y : List Nat, (prodL X Y).length = X.length * Y.length := by
    intro X Y
    unfold prodL
    rw [List.length_flatMap]
    simp
  rw [hR, List.length_range] at hl
  rw [← hl, ← List.length_append]
  have hne : ∀ c < 2 * t.nodes.length + 1, 1 ≤ (objsIn t c).length := by
    intro c hc
    obtain ⟨S, hS, rfl⟩ := (whole_cells D.whole c).1 hc
    obtain ⟨o, ho⟩ := cellObjs_ne K S hS
    rw [(objs_ok K hS).2]
    exact List.length_pos_of_mem ho
  have hin : ∀ ab ∈ ref.1 ++ ref.2, 1 ≤ (prodL (objsIn t ab.1) (objsIn t ab.2)).length := by
    intro ab hab
    rw [hR]
    rcases List.mem_append.1 hab with h | h
    · exact Nat.mul_pos (hne _ (hlt.1 ab h).1) (hne _ (hlt.1 ab h).2)
    · exact Nat.mul_pos (hne _ (hlt.2 ab h).1) (hne _ (hlt.2 ab h).2)
  revert hin
  generalize ref.1 ++ ref.2 = X
  intro hin
  clear hl hlt hspec href
  induction X with
  | nil => simp
  | cons ab X ih =>
    rw [List.flatMap_cons, List.length_append, List.length_cons]
    have h1 := hin ab (by simp)
    have h2 := ih fun x hx => hin x (by simp [hx])
    omega

/-! ### A concrete patch -/

/-- Exact arithmetic, truncated conversion. -/
def sgArith : GridArith ℝ where
  sub a b := a - b
  div a b := a / b
  ofNat n := n
  conv a := if 0 ≤ a ∧ a < 65536 then some ⌊a⌋₊ else none
  goodFact f := 0 < f
  sub_mono c a b h := by linarith
  div_mono f a b hf h := div_le_div_of_nonneg_right h hf.le
  conv_mono a b x y h hx hy := by
    split at hx
    · split at hy
      · rw [Option.some.injEq] at hx hy
        rw [← hx, ← hy]
        exact Nat.floor_mono h
      · simp at hy
    · simp at hx
  conv_between a b c h1 h2 ha hc := by
    split at ha
    · split at hc
      · rw [if_pos ⟨by linarith, by linarith⟩]; rfl
      · simp at hc
    · simp at ha

def sgPos : List (V3 ℝ) := [⟨0, 0, 0⟩, ⟨1, 2, 3⟩, ⟨8, 8, 8⟩]

def sgEnv : BVHEnv ℝ :=
  ⟨fun _ _ => [1, 0, 0], [7#32], fun _ => 3, [2, 0, 1], List.replicate 32 [1, 0], List.replicate 32 [0, 1], fun _ => ⟨0, 0, 0⟩,
    fun _ => ⟨9, 9, 9⟩⟩

theorem sg_grid : GridOk sgArith 10 (0 : ℝ) 8 := by
  refine ⟨by norm_num, ?_, ?_, ?_⟩
  · show (0 : ℝ) < (8 - 0) / ((2 ^ 10 : Nat) : ℝ)
    norm_num
  · show (if 0 ≤ ((0 : ℝ) - 0) / ((8 - 0) / ((2 ^ 10 : Nat) : ℝ)) ∧ ((0 : ℝ) - 0) / ((8 - 0) / ((2 ^ 10 : Nat) : ℝ)) < 65536 then
      some _ else none).isSome = true
    rw [if_pos (by norm_num)]; rfl
  · show (if 0 ≤ ((8 : ℝ) - 0) / ((8 - 0) / ((2 ^ 10 : Nat) : ℝ)) ∧ ((8 : ℝ) - 0) / ((8 - 0) / ((2 ^ 10 : Nat) : ℝ)) < 65536 then
      some _ else none).isSome = true
    rw [if_pos (by norm_num)]; rfl

/-- Three particles meet the hypotheses of the build. -/
theorem sg_in : BVHIn sgArith mcode32 sgEnv 100 (-100) sgPos sgPos (fun i => sgPos.getD i ⟨0, 0, 0⟩) (fun i => sgPos.getD i ⟨0, 0, 0⟩)
    3#32 ⟨0, 0, 0⟩ ⟨8, 8, 8⟩ where
  code := mcode32_ok
  boxx := sg_grid
  boxy := sg_grid
  boxz := sg_grid
  pos := by decide
  lim := by decide
  lower := by
    intro i hi
    have : i < 3 := hi
    interval_cases i <;> rfl
  upper := by
    intro i hi
    have : i < 3 := hi
    interval_cases i <;> rfl
  below := by
    intro i hi
    have : i < 3 := hi
    interval_cases i <;> simp [sgPos] <;> norm_num
  above := by
    intro i hi
    have : i < 3 := hi
    interval_cases i <;> simp [sgPos] <;> norm_num
  order := by decide
  launchMin := by decide
  launchMax := by decide

/-- The whole chain runs on these particles: build, traversal with an opening angle of 1/2, forces of order 5 added to given accelerations. -/
example : ∃ (t : BVH ℝ) (ref : Inter) (o : DTTOrdered) (genv : SGEnv (fmmOps 4)) (acc' : List (V3 ℝ)) (F : Nat → Nat → Fin 3 → ℝ),
    rebuildFromPositions sgArith mcode32 sgEnv 100 (-100) sgPos 3#32 ⟨0, 0, 0⟩ ⟨8, 8, 8⟩ 0 = .ok t ∧
    dttReference true (macStd (1 / 2)) t = some ref ∧ dttSelect true (macStd (1 / 2)) t (3 * mcode32.bits + 2) (fun _ => (0, 0))
      (List.range (2 * t.nodes.length + 1)) = some o ∧
    sgsfmm (fmmOps 4) (ptrInsertSort pair2Lt) genv t o sgPos 3 1 2 (1 / 10) [⟨0, 0, 1⟩, ⟨0, 0, 0⟩, ⟨5, 0, 0⟩] = some acc' ∧ acc'.length = 3 ∧
    ∀ i < 3, ∀ j < 3, FarPair t (1 / 2) 5 (fun i => sgPos.getD i ⟨0, 0, 0⟩) ref.1 i j (F i j) ∨
      NearPair t (1 / 10) (fun i => sgPos.getD i ⟨0, 0, 0⟩) ref.2 i j (F i j) := by
  obtain ⟨t, T, st, ht, K, _⟩ := rebuild_ok sg_in 0
  obtain ⟨ref, href, _⟩ := C53_reference sg_in 0 ht true (macStd (1 / 2))
  have hle := inter_le sg_in 0 ht true _ ref href
  obtain ⟨M, hM⟩ : ∃ M, M = (incPairs t).length := ⟨_, rfl⟩
  obtain ⟨genv, hgenv⟩ : ∃ genv : SGEnv (fmmOps 4), genv = ⟨List.replicate 32 [0, 1, 0], List.replicate 32 [1, 0], fun _ => (fmmOps 4).zeroM,
    List.range (t.nodes.length + 1), ⟨List.range M, List.range M, List.range 3, fun _ => (0, 0)⟩⟩ := ⟨_, rfl⟩
  obtain ⟨o, acc', F, h1, h2, h3, h4, _⟩ := C69_sgsfmm_select 4 sg_in 0 ht (by norm_num) true ref href
    (lt_of_le_of_lt hle (by decide)) (fun _ => (0, 0)) (List.range (2 * t.nodes.length + 1)) (List.Perm.refl _) (ptrInsertSort pair2Lt)
    (ptrInsertSort_ranges pair2Lt_weak) genv
    (by
      rw [hgenv]
      refine ⟨rfl, rfl, List.Perm.refl _, ?_⟩
      intro inc hinc
      rw [incidences_ok K, Option.some.injEq] at hinc
      subst hinc
      rw [← hM]
      exact ⟨List.Perm.refl _, List.Perm.refl _, List.Perm.refl _⟩)
    1 2 (1 / 10) (by norm_num) [⟨0, 0, 1⟩, ⟨0, 0, 0⟩, ⟨5, 0, 0⟩] rfl
  exact ⟨t, ref, o, genv, acc', F, ht, href, h1, h2, h3, h4⟩

end

end Shamrock.SelfGrav
