import Verif.Proof.SerialTree
/-! C40: point location in the serialised patch tree. -/
namespace Shamrock

/-- Every root box is a non empty box of the source range of the transform: `smin ≤ coord_min ≤ coord_max < 2^64 - 1`. -/
def RootsInRange (smin : V3 Nat) (t : PTree) : Prop :=
  ∀ r n, t.roots r = true → t.tree r = some n →
    (smin.x ≤ n.coord.cmin.x ∧ n.coord.cmin.x ≤ n.coord.cmax.x ∧ n.coord.cmax.x + 1 < 2 ^ 64) ∧
    (smin.y ≤ n.coord.cmin.y ∧ n.coord.cmin.y ≤ n.coord.cmax.y ∧ n.coord.cmax.y + 1 < 2 ^ 64) ∧
    (smin.z ≤ n.coord.cmin.z ∧ n.coord.cmin.z ≤ n.coord.cmax.z ∧ n.coord.cmax.z + 1 < 2 ^ 64)

/-- The same for all nodes. -/
def NodeIn (smin : V3 Nat) (c : PatchCoord) : Prop :=
  (smin.x ≤ c.cmin.x ∧ c.cmin.x ≤ c.cmax.x ∧ c.cmax.x + 1 < 2 ^ 64) ∧
  (smin.y ≤ c.cmin.y ∧ c.cmin.y ≤ c.cmax.y ∧ c.cmax.y + 1 < 2 ^ 64) ∧
  (smin.z ≤ c.cmin.z ∧ c.cmin.z ≤ c.cmax.z ∧ c.cmax.z + 1 < 2 ^ 64)

theorem NodeIn_mk (smin : V3 Nat) (a b c d e f : Nat) (h1 : smin.x ≤ a ∧ a ≤ d ∧ d + 1 < 2 ^ 64) (h2 : smin.y ≤ b ∧ b ≤ e ∧ e + 1 < 2 ^ 64) 
  (h3 : smin.z ≤ c ∧ c ≤ f ∧ f + 1 < 2 ^ 64) : NodeIn smin ⟨⟨a,b,c⟩,⟨d,e,f⟩⟩ := by
  unfold NodeIn
  exact ⟨h1, h2, h3⟩

theorem getSplit_in (smin : V3 Nat) (c : PatchCoord) (hs : Splittable c) (h : NodeIn smin c) : ∀ ch ∈ getSplit c, NodeIn smin ch := by
  obtain ⟨hx, hy, hz⟩ := hs
  obtain ⟨ix, iy, iz⟩ := h
  obtain ⟨ax, bx, cx⟩ := splitCoord1_bounds hx.1 hx.2 (by omega)
  obtain ⟨ay, by', cy⟩ := splitCoord1_bounds hy.1 hy.2 (by omega)
  obtain ⟨az, bz, cz⟩ := splitCoord1_bounds hz.1 hz.2 (by omega)
  intro ch hch
  simp only [getSplit, getSplitCoord, cx, cy, cz, List.mem_cons, List.not_mem_nil, or_false] at hch
  clear cx cy cz
  generalize splitCoord1 c.cmin.x c.cmax.x = sx at *
  generalize splitCoord1 c.cmin.y c.cmax.y = sy at *
  generalize splitCoord1 c.cmin.z c.cmax.z = sz at *
  have key : ∀ s mn sp mx : Nat, mn < mx → s ≤ mn → mx + 1 < 2 ^ 64 → mn ≤ sp → sp < mx →
      (s ≤ mn ∧ mn ≤ sp ∧ sp + 1 < 2 ^ 64) ∧ (s ≤ sp + 1 ∧ sp + 1 ≤ mx ∧ mx + 1 < 2 ^ 64) := by
    intro s mn sp mx h1 h2 h3 h4 h5
    omega
  obtain ⟨x1, x2⟩ := key _ _ sx _ hx.1 ix.1 ix.2.2 ax bx
  obtain ⟨y1, y2⟩ := key _ _ sy _ hy.1 iy.1 iy.2.2 ay by'
  obtain ⟨z1, z2⟩ := key _ _ sz _ hz.1 iz.1 iz.2.2 az bz
  rcases hch with h | h | h | h | h | h | h | h <;> subst h
  · exact NodeIn_mk _ _ _ _ _ _ _ x1 y1 z1
  · exact NodeIn_mk _ _ _ _ _ _ _ x1 y1 z2
  · exact NodeIn_mk _ _ _ _ _ _ _ x1 y2 z1
  · exact NodeIn_mk _ _ _ _ _ _ _ x1 y2 z2
  · exact NodeIn_mk _ _ _ _ _ _ _ x2 y1 z1
  · exact NodeIn_mk _ _ _ _ _ _ _ x2 y1 z2
  · exact NodeIn_mk _ _ _ _ _ _ _ x2 y2 z1
  · exact NodeIn_mk _ _ _ _ _ _ _ x2 y2 z2

attribute [local irreducible] u64max getSplit

theorem nodes_in {t : PTree} (H : TInv t) (hs : SplitsOk t) {smin : V3 Nat} (hr : RootsInRange smin t) :
    ∀ m x n, x ≤ m → t.tree x = some n → NodeIn smin n.coord := by
  intro m
  induction m with
  | zero =>
    intro x n hm h
    rcases H.forest.parent x n h with ⟨a, b⟩ | ⟨_, b, _⟩
    · exact hr x n a h
    · omega
  | succ m ih =>
    intro x n hm h
    by_cases hp : n.parent = u64max
    · exact hr x n ((H.root x).2 ⟨n, h, hp⟩) h
    · obtain ⟨q, q1, q2, q3⟩ := H.up x n h hp
      obtain ⟨i, hi⟩ := List.mem_iff_getElem?.1 q3
      obtain ⟨k, k1, k2, k3, k4⟩ := H.down _ q q1 q2 i x hi
      rw [h, Option.some.injEq] at k1
      subst k1
      exact getSplit_in smin q.coord (hs _ q q1 q2).1 (ih _ q (by omega) q1) _ (List.mem_iff_getElem?.2 ⟨i, k4⟩)

theorem tiles_domain {F : Type} [LinearOrder F] (A : MonoArith F) (fact dmin : V3 F) (smin : V3 Nat)
    (hf : A.goodFact fact.x ∧ A.goodFact fact.y ∧ A.goodFact fact.z) {t : PTree} (H : TInv t) (hs : SplitsOk t) (hr : RootsInRange smin t) (p : V3 F) :
    Tiles t fun c => InHalfOpen (domainBox A fact dmin smin c).1 (domainBox A fact dmin smin c).2 p := by
  intro x n hx hl
  obtain ⟨⟨a1, a2, a3⟩, ⟨b1, b2, b3⟩, ⟨c1, c2, c3⟩⟩ := nodes_in H hs hr x x n (Nat.le_refl _) hx
  exact C47_children_tile_domain A fact dmin smin hf n.coord ⟨a1, b1, c1⟩ (hs x n hx hl).1 ⟨a3, b3, c3⟩ p

/-- Disjoint integer boxes stay disjoint after the rounding transform. -/
theorem domain_disjoint {F : Type} [LinearOrder F] (A : MonoArith F) (fact dmin : V3 F) (smin : V3 Nat)
    (hf : A.goodFact fact.x ∧ A.goodFact fact.y ∧ A.goodFact fact.z) (a b : PatchCoord) (ha : NodeIn smin a) (hb : NodeIn smin b) (p : V3 F)
    (pa : InHalfOpen (domainBox A fact dmin smin a).1 (domainBox A fact dmin smin a).2 p)
    (pb : InHalfOpen (domainBox A fact dmin smin b).1 (domainBox A fact dmin smin b).2 p) : ∃ q, Cell a q ∧ Cell b q := by
  have axis : ∀ (fa da q : F) (s amin amax bmin bmax : Nat), A.goodFact fa → s ≤ amin → amin ≤ amax → amax + 1 < 2 ^ 64 → s ≤ bmin → bmin ≤ bmax →
      bmax + 1 < 2 ^ 64 → transformMul A fa da s amin ≤ q ∧ q < transformMul A fa da s (u64add amax 1) →
      transformMul A fa da s bmin ≤ q ∧ q < transformMul A fa da s (u64add bmax 1) → amin ≤ bmax ∧ bmin ≤ amax := by
    intro fa da q s amin amax bmin bmax hfa h1 h2 h3 h4 h5 h6 ⟨h7, h8⟩ ⟨h9, h10⟩
    have ua : u64add amax 1 = amax + 1 := by unfold u64add; omega
    have ub : u64add bmax 1 = bmax + 1 := by unfold u64add; omega
    rw [ua] at h8
    rw [ub] at h10
    constructor
    · by_contra hc
      have := transformMul_mono A (dmin := da) hfa (show s ≤ bmax + 1 by omega) (show bmax + 1 ≤ amin by omega) (by omega)
      exact absurd (lt_of_lt_of_le h10 (this.trans h7)) (lt_irrefl _)
    · by_contra hc
      have := transformMul_mono A (dmin := da) hfa (show s ≤ amax + 1 by omega) (show amax + 1 ≤ bmin by omega) (by omega)
      exact absurd (lt_of_lt_of_le h8 (this.trans h9)) (lt_irrefl _)
  obtain ⟨⟨a1, a2, a3⟩, ⟨a4, a5, a6⟩, ⟨a7, a8, a9⟩⟩ := ha
  obtain ⟨⟨b1, b2, b3⟩, ⟨b4, b5, b6⟩, ⟨b7, b8, b9⟩⟩ := hb
  obtain ⟨px, py, pz⟩ := pa
  obtain ⟨qx, qy, qz⟩ := pb
  have hx := axis _ _ _ _ _ _ _ _ hf.1 a1 a2 a3 b1 b2 b3 px qx
  have hy := axis _ _ _ _ _ _ _ _ hf.2.1 a4 a5 a6 b4 b5 b6 py qy
  have hz := axis _ _ _ _ _ _ _ _ hf.2.2 a7 a8 a9 b7 b8 b9 pz qz
  refine ⟨⟨max a.cmin.x b.cmin.x, max a.cmin.y b.cmin.y, max a.cmin.z b.cmin.z⟩, ⟨⟨?_, ?_⟩, ⟨?_, ?_⟩, ⟨?_, ?_⟩⟩, ⟨⟨?_, ?_⟩, ⟨?_, ?_⟩, ⟨?_, ?_⟩⟩⟩ <;> dsimp only <;> omega

/-- Specification: the position is in the half open domain box of the node. -/
def Contains {F : Type} [LinearOrder F] (A : MonoArith F) (fact dmin : V3 F) (smin : V3 Nat) (p : V3 F) (n : PTNode) : Prop :=
  InHalfOpen (domainBox A fact dmin smin n.coord).1 (domainBox A fact dmin smin n.coord).2 p

/-- C40: for every history of the patch tree and every iteration order of its roots the serial tree has exactly one entry for each node of the
patch tree, with its box and its linked patch id, leaves marked, and children fields pointing to the entries of the children; the root list
points to the entries of the roots. -/
theorem C40_serial_tree {F : Type} (box : PatchCoord → V3 F × V3 F) (t : PTree) (h : THist PTree.init t) (rs : List Nat)
    (hr : Enumerates rs t.roots) (hnd : rs.Nodup) : ∃ (s : SSt F) (ids K : List Nat), serBuild box t rs = .ok (s, ids) ∧ K.Nodup ∧ (∀ x, x ∈ K ↔ ∃ n, t.tree x = some n) ∧
      s.nodes.length = K.length ∧ s.links.length = K.length ∧ ids.length = rs.length ∧
      (∀ (m : Nat) r, rs[m]? = some r → ∃ m', ids[m]? = some m' ∧ K[m']? = some r) ∧
      ∀ (m : Nat) x, K[m]? = some x → ∃ n nd, t.tree x = some n ∧ s.nodes[m]? = some nd ∧ s.links[m]? = some n.linked ∧
        nd.lo = (box n.coord).1 ∧ nd.hi = (box n.coord).2 ∧ (n.isLeaf = true ↔ nd.childs.head? = some u64max) ∧
        (n.isLeaf = false → nd.childs.length = 8 ∧ ∀ (k : Nat) c, n.childs[k]? = some c → ∃ m', nd.childs[k]? = some m' ∧ K[m']? = some c) := by
  have H := h.inv TInv.init
  obtain ⟨s, ids, K, e, S⟩ := serBuild_ok box t H h.lev rs hr hnd
  refine ⟨s, ids, K, e, S.nodup, S.mem, S.nodes, S.links, S.len, S.roots, fun m x hm => ?_⟩
  obtain ⟨n, nd, a1, a2, a3, a4, a5, a6⟩ := S.ent m x hm
  refine ⟨n, nd, a1, a2, a3, a4, a5, ?_, fun hl => ?_⟩
  · rcases a6 with ⟨b1, b2⟩ | ⟨b1, b2, b3⟩
    · exact ⟨fun _ => b2, fun _ => b1⟩
    · refine ⟨fun hl => (by rw [b1] at hl; cases hl), fun he => ?_⟩
      have h8 := (H.kids x n a1 b1).1
      obtain ⟨c, hc⟩ : ∃ c, n.childs[0]? = some c := ⟨_, List.getElem?_eq_getElem (by omega)⟩
      obtain ⟨m', e1, e2⟩ := b3 0 c hc
      rw [List.head?_eq_getElem?, e1, Option.some.injEq] at he
      have := (List.getElem?_eq_some_iff.1 e2).1
      have := S.small
      have := u64max_big
      omega
  · rcases a6 with ⟨b1, b2⟩ | ⟨b1, b2, b3⟩
    · rw [hl] at b1; cases b1
    · exact ⟨by rw [b2]; exact (H.kids x n a1 b1).1, b3⟩

theorem roots_unique {F : Type} [LinearOrder F] (A : MonoArith F) (fact dmin : V3 F) (smin : V3 Nat)
    (hf : A.goodFact fact.x ∧ A.goodFact fact.y ∧ A.goodFact fact.z) {t : PTree} (hri : RootsInRange smin t) (hd : RootsDisjoint t) (p : V3 F) :
    ∀ a b na nb, t.roots a = true → t.roots b = true → t.tree a = some na → t.tree b = some nb →
      Contains A fact dmin smin p na → Contains A fact dmin smin p nb → a = b := by
  intro a b na nb ha hb ta tb ca cb
  obtain ⟨q, q1, q2⟩ := domain_disjoint A fact dmin smin hf na.coord nb.coord (hri a na ha ta) (hri b nb hb tb) p ca cb
  exact hd a b na nb q ha hb ta tb q1 q2

/-- The point location, for every tree with the two invariants. -/
theorem owner_inv {F : Type} [LinearOrder F] (A : MonoArith F) (fact dmin : V3 F) (smin : V3 Nat)
    (hf : A.goodFact fact.x ∧ A.goodFact fact.y ∧ A.goodFact fact.z) (t : PTree) (H : TInv t) (hL : TLev t) (hs : SplitsOk t) (hd : RootsDisjoint t)
    (hri : RootsInRange smin t) (rs : List Nat) (hr : Enumerates rs t.roots) (hnd : rs.Nodup) (p : V3 F)
    (hp : ∃ r n, t.roots r = true ∧ t.tree r = some n ∧ Contains A fact dmin smin p n) :
    ∃ s ids l k, serBuild (domainBox A fact dmin smin) t rs = .ok (s, ids) ∧ t.leafKey l = true ∧ t.tree l = some k ∧
      Contains A fact dmin smin p k ∧ (∀ l' k', t.leafKey l' = true → t.tree l' = some k' → Contains A fact dmin smin p k' → l' = l) ∧
      patchOwner s ids p = .ok k.linked := by
  obtain ⟨s, ids, K, e, S⟩ := serBuild_ok (domainBox A fact dmin smin) t H hL rs hr hnd
  obtain ⟨r, n, hr1, hr2, hr3⟩ := hp
  have hT := tiles_domain A fact dmin smin hf H hs hri p
  have hru := roots_unique A fact dmin smin hf hri hd p
  obtain ⟨i, hi⟩ := List.mem_iff_getElem?.1 ((hr r).2 hr1)
  obtain ⟨m, hm1, hm2⟩ := S.roots i r hi
  have hids : ∀ (j : Nat) c, ids[j]? = some c → ∃ r' n' nd', rs[j]? = some r' ∧ K[c]? = some r' ∧ t.roots r' = true ∧ t.tree r' = some n' ∧ s.nodes[c]? = some nd' ∧
      nd'.lo = (domainBox A fact dmin smin n'.coord).1 ∧ nd'.hi = (domainBox A fact dmin smin n'.coord).2 := by
    intro j c hc
    have hlt : j < rs.length := by have := (List.getElem?_eq_some_iff.1 hc).1; have := S.len; omega
    have hrj := List.getElem?_eq_getElem hlt
    obtain ⟨m', e1, e2⟩ := S.roots j _ hrj
    rw [hc, Option.some.injEq] at e1
    subst e1
    obtain ⟨n', nd', a1, a2, _, a4, a5, _⟩ := S.ent c _ e2
    exact ⟨_, n', nd', hrj, e2, (hr _).1 (List.getElem_mem hlt), a1, a2, a4, a5⟩
  obtain ⟨n', nd, a1, a2, a3, a4, a5, a6⟩ := S.ent m r hm2
  rw [hr2, Option.some.injEq] at a1
  subst a1
  have hroot : ownerRoot s.nodes p ids = .ok m := by
    refine ownerRoot_found s.nodes p ids i m nd ?_ hm1 a2 (by rw [a4, a5]; exact hr3) ?_
    · intro c hc
      obtain ⟨j, hj⟩ := List.mem_iff_getElem?.1 hc
      obtain ⟨_, _, nd', _, e2, _, _, e3, _⟩ := hids j c hj
      have := (List.getElem?_eq_some_iff.1 e2).1
      have := S.small
      exact ⟨by omega, nd', e3⟩
    · intro j c nd' hj hn hin
      obtain ⟨r', n', nd2, e1, e2, e3, e4, e5, e6, e7⟩ := hids j c hj
      rw [hn, Option.some.injEq] at e5
      subst e5
      rw [e6, e7] at hin
      have := hru r' r n' n e3 hr1 e4 hr2 hin hr3
      subst this
      exact nodup_idx hnd e1 hi
  have hlev := hL.rootLevel r n hr2 (by
    obtain ⟨n0, n1, n2⟩ := (H.root r).1 hr1
    rw [hr2, Option.some.injEq] at n1; subst n1; exact n2)
  obtain ⟨l, k, l1, l2, l3, l4⟩ := ownerLoop_found H hL S p hT (t.nextId - r) m r n (s.lev + 1) (Nat.le_refl _) hm2 hr2 hr3 (by omega)
  refine ⟨s, ids, l, k, e, (H.leaf l).2 ⟨k, l1, l2⟩, l1, l3, fun l' k' h1 h2 h3 => ?_, ?_⟩
  · obtain ⟨k2, q1, q2⟩ := (H.leaf l').1 h1
    rw [h2, Option.some.injEq] at q1
    subst q1
    exact leaf_unique_in H hT hru h2 l1 q2 l2 h3 l3
  · unfold patchOwner
    rw [hroot]
    exact l4

/-- C40: for every history of the patch tree, every iteration order of the roots, every rounding and every position inside some root box there is
exactly one leaf whose half open box contains the position, and `compute_patch_owner` returns the patch id linked to it (within the number of
steps the code allows itself). -/
theorem C40_owner {F : Type} [LinearOrder F] (A : MonoArith F) (fact dmin : V3 F) (smin : V3 Nat)
    (hf : A.goodFact fact.x ∧ A.goodFact fact.y ∧ A.goodFact fact.z) (t : PTree) (h : THist PTree.init t) (hs : SplitsOk t) (hd : RootsDisjoint t)
    (hri : RootsInRange smin t) (rs : List Nat) (hr : Enumerates rs t.roots) (hnd : rs.Nodup) (p : V3 F)
    (hp : ∃ r n, t.roots r = true ∧ t.tree r = some n ∧ Contains A fact dmin smin p n) :
    ∃ s ids l k, serBuild (domainBox A fact dmin smin) t rs = .ok (s, ids) ∧ t.leafKey l = true ∧ t.tree l = some k ∧
      Contains A fact dmin smin p k ∧ (∀ l' k', t.leafKey l' = true → t.tree l' = some k' → Contains A fact dmin smin p k' → l' = l) ∧
      patchOwner s ids p = .ok k.linked :=
  owner_inv A fact dmin smin hf t (h.inv TInv.init) h.lev hs hd hri rs hr hnd p hp

/-- C40: if no root box contains the position and the first root was split, the result is the error id 2^64-1.
Partial: `C40_outside_defect` shows the unsplit case. -/
theorem C40_outside_partial {F : Type} [LinearOrder F] (A : MonoArith F) (fact dmin : V3 F) (smin : V3 Nat)
    (hf : A.goodFact fact.x ∧ A.goodFact fact.y ∧ A.goodFact fact.z) (t : PTree) (h : THist PTree.init t) (hs : SplitsOk t)
    (hri : RootsInRange smin t) (r0 : Nat) (rs : List Nat) (hr : Enumerates (r0 :: rs) t.roots) (hnd : (r0 :: rs).Nodup) (p : V3 F)
    (hp : ∀ r n, t.roots r = true → t.tree r = some n → ¬ Contains A fact dmin smin p n) (h0 : t.leafKey r0 = false) :
    ∃ s ids, serBuild (domainBox A fact dmin smin) t (r0 :: rs) = .ok (s, ids) ∧ patchOwner s ids p = .ok u64max := by
  have H := h.inv TInv.init
  have hT := tiles_domain A fact dmin smin hf H hs hri p
  -- the entry of the first root is entry 0
  obtain ⟨s, K, ids, e, R⟩ := serRoots_ok (domainBox A fact dmin smin) t H h.lev (r0 :: rs) ⟨[], [], 0, 0⟩ [] (fun r h => (hr r).1 h) hnd ⟨rfl, rfl⟩
  obtain ⟨s', ids', K', e', S⟩ := serBuild_ok (domainBox A fact dmin smin) t H h.lev (r0 :: rs) hr hnd
  obtain ⟨n0, hn0, _⟩ := (H.root r0).1 ((hr r0).1 List.mem_cons_self)
  have hl0 : n0.isLeaf = false := by
    cases hb : n0.isLeaf with
    | false => rfl
    | true => rw [(H.leaf r0).2 ⟨n0, hn0, hb⟩] at h0; cases h0
  have hz : ids'.head? = some 0 := by
    obtain ⟨s1, K1, f1, R1⟩ := serTree_ok (domainBox A fact dmin smin) t H h.lev (t.nextId + 1) r0 n0 ⟨[], [], 0, 0⟩ hn0 (by omega) ⟨rfl, rfl⟩
    have hnd2 := (List.nodup_cons.1 hnd).2
    obtain ⟨s2, K2, ids2, f2, R2⟩ := serRoots_ok (domainBox A fact dmin smin) t H h.lev rs s1 ([] ++ [0])
      (fun r h => (hr r).1 (List.mem_cons_of_mem _ h)) hnd2 R1.wf
    have : serBuild (domainBox A fact dmin smin) t (r0 :: rs) = .ok (s2, [] ++ [0] ++ ids2) := by
      unfold serBuild
      rw [serRoots, f1]
      exact f2
    rw [this, Res.ok.injEq, Prod.mk.injEq] at e'
    rw [← e'.2]; rfl
  have hK0 : K'[0]? = some r0 := by
    obtain ⟨m', q1, q2⟩ := S.roots 0 r0 rfl
    rw [List.head?_eq_getElem?, q1, Option.some.injEq] at hz
    subst hz
    exact q2
  refine ⟨s', ids', e', ?_⟩
  obtain ⟨n', nd, a1, a2, a3, a4, a5, a6⟩ := S.ent 0 r0 hK0
  rw [hn0, Option.some.injEq] at a1
  subst a1
  have hroot : ownerRoot s'.nodes p ids' = .ok 0 := by
    refine ownerRoot_none s'.nodes p ids' fun c hc => ?_
    obtain ⟨j, hj⟩ := List.mem_iff_getElem?.1 hc
    have hlt : j < (r0 :: rs).length := by have := (List.getElem?_eq_some_iff.1 hj).1; have := S.len; omega
    have hrj := List.getElem?_eq_getElem hlt
    obtain ⟨m', e1, e2⟩ := S.roots j _ hrj
    rw [hj, Option.some.injEq] at e1
    subst e1
    obtain ⟨n', nd', b1, b2, _, b4, b5, _⟩ := S.ent c _ e2
    have := (List.getElem?_eq_some_iff.1 e2).1
    have := S.small
    refine ⟨by omega, nd', b2, ?_⟩
    rw [b4, b5]
    exact hp _ n' ((hr _).1 (List.getElem_mem hlt)) b1
  unfold patchOwner
  rw [hroot]
  show ownerLoop s' p (s'.lev + 1) 0 = _
  rcases a6 with ⟨b1, _⟩ | ⟨b1, b2, b3⟩
  · rw [hl0] at b1; cases b1
  · have hkid : ∀ (k : Nat) j, nd.childs[k]? = some j → ∃ c kn knd, n0.childs[k]? = some c ∧ K'[j]? = some c ∧ t.tree c = some kn ∧
          (getSplit n0.coord)[k]? = some kn.coord ∧ s'.nodes[j]? = some knd ∧ knd.lo = (domainBox A fact dmin smin kn.coord).1 ∧
          knd.hi = (domainBox A fact dmin smin kn.coord).2 := by
      intro k j hk
      have hlt : k < n0.childs.length := by have := (List.getElem?_eq_some_iff.1 hk).1; omega
      have hc := List.getElem?_eq_getElem hlt
      obtain ⟨j', e1, e2⟩ := b3 k _ hc
      rw [hk, Option.some.injEq] at e1
      subst e1
      obtain ⟨kn, k1, k2, k3, k4⟩ := H.down r0 n0 hn0 b1 k _ hc
      obtain ⟨kn', knd, q1, q2, q3, q4, q5, _⟩ := S.ent j _ e2
      rw [k1, Option.some.injEq] at q1
      subst q1
      exact ⟨_, kn, knd, hc, e2, k1, k4, q2, q4, q5⟩
    refine ownerLoop_stuck s' p 0 nd a2 ?_ (fun c hc => ?_) _
    · rw [List.head?_eq_getElem?]
      intro he
      obtain ⟨c', _, _, _, e2, _⟩ := hkid 0 _ he
      have := (List.getElem?_eq_some_iff.1 e2).1
      have := S.small
      have := u64max_big
      omega
    · obtain ⟨k, hk⟩ := List.mem_iff_getElem?.1 hc
      obtain ⟨c', kn, knd, q1, q2, q3, q4, q5, q6, q7⟩ := hkid k c hk
      refine ⟨knd, q5, fun hin => ?_⟩
      rw [q6, q7] at hin
      exact hp r0 n0 ((hr r0).1 List.mem_cons_self) hn0 ((hT r0 n0 hn0 b1).2 _ (List.mem_iff_getElem?.2 ⟨k, q4⟩) hin)

/-- C40: the host traversal, for every callback: it terminates, and reports exactly the leaves all of whose ancestors (and itself) the callback
accepts, each once, with the linked patch id and the serial node. (Leaves have a linked patch, internal nodes have none.) -/
theorem C40_for_each_leaf {F : Type} (box : PatchCoord → V3 F × V3 F) (t : PTree) (h : THist PTree.init t) (rs : List Nat)
    (hr : Enumerates rs t.roots) (hnd : rs.Nodup) (hlk : ∀ x n, t.tree x = some n → (n.isLeaf = true ↔ n.linked ≠ u64max))
    (s : SSt F) (ids : List Nat) (hb : serBuild box t rs = .ok (s, ids)) (cd : Nat → SNode F → Bool) :
    ∃ (K : List Nat) (N : Nat) (O : List (Nat × SNode F)) (X : List Nat), (∀ (m : Nat) x, K[m]? = some x → ∃ n nd, t.tree x = some n ∧ s.nodes[m]? = some nd ∧ nd.lo = (box n.coord).1 ∧ nd.hi = (box n.coord).2) ∧
      (∀ f, forEachLeaf s cd (f + N) ids.reverse [] = some (.ok O)) ∧ List.Forall₂ (Reports t s K) O X ∧ X.Nodup ∧
      ∀ y, y ∈ X ↔ t.leafKey y = true ∧ ∀ z, (∃ n, t.tree z = some n) → Under t z y → Accepts s K cd z := by
  have H := h.inv TInv.init
  obtain ⟨s', ids', K, e, S⟩ := serBuild_ok box t H h.lev rs hr hnd
  rw [hb, Res.ok.injEq, Prod.mk.injEq] at e
  obtain ⟨rfl, rfl⟩ := e
  obtain ⟨N, O, X, c1, c2, c3, c4⟩ := Visits.many (t := t) (s := s) (K := K) (cd := cd) ids.reverse rs.reverse
    (by
      rw [List.forall₂_reverse_iff]
      refine forall2_of_getElem _ _ S.len fun k j r h1 h2 => ?_
      obtain ⟨m', e1, e2⟩ := S.roots k r h2
      rw [h1, Option.some.injEq] at e1
      subst e1
      exact visits_one H S cd hlk _ j r (Nat.le_refl _) e2)
    (by
      rw [List.pairwise_reverse, List.pairwise_iff_getElem]
      intro i j hi hj hij y h1 h2
      have := Under.roots H ((hr _).1 (List.getElem_mem hi)) ((hr _).1 (List.getElem_mem hj)) h2 h1
      have := (hnd.getElem_inj_iff).1 this
      omega)
  refine ⟨K, N + 1, O, X, ?_, fun f => ?_, c2, c3, fun y => ?_⟩
  · intro m x hm
    obtain ⟨n, nd, a1, a2, _, a4, a5, _⟩ := S.ent m x hm
    exact ⟨n, nd, a1, a2, a4, a5⟩
  · have := c1 (f + 1) [] []
    rw [List.append_nil, List.nil_append] at this
    rw [show f + (N + 1) = f + 1 + N by omega, this]
    rfl
  · rw [c4, H.leaf]
    constructor
    · rintro ⟨r, h1, h2, h3, h4⟩
      rw [List.mem_reverse, hr r] at h1
      refine ⟨h2, fun z hz hu => h4 z ?_ hu⟩
      obtain ⟨n, hn⟩ := hz
      obtain ⟨r', r1, r2⟩ := underRoot H z z n (Nat.le_refl _) hn
      have := Under.roots H h1 r1 h3 (r2.trans hu)
      subst this
      exact r2
    · rintro ⟨⟨n, h1, h2⟩, h3⟩
      obtain ⟨r, r1, r2⟩ := underRoot H y y n (Nat.le_refl _) h1
      refine ⟨r, by rw [List.mem_reverse, hr r]; exact r1, ⟨n, h1, h2⟩, r2, fun z hz hu => h3 z ?_ hu⟩
      have hroot := (H.root r).1 r1
      cases hz with
      | refl => obtain ⟨n, hn, _⟩ := hroot; exact ⟨n, hn⟩
      | step b1 _ _ _ _ => exact ⟨_, b1⟩

/-! ### Witnesses -/

/-- Two roots; the first is split. Patch ids are linked to the leaves as the scheduler does. -/
def exSer : List TOp :=
  [.root 8 ⟨⟨80, 0, 0⟩, ⟨159, 79, 79⟩⟩, .root 0 ⟨⟨0, 0, 0⟩, ⟨79, 79, 79⟩⟩, .split 0 99, .link 0 u64max, .link 1 100, .link 2 10, .link 3 11, .link 4 12, .link 5 13,
   .link 6 14, .link 7 15, .link 8 16, .link 9 17]

/-- All hypotheses of `C40_owner`, `C40_outside_partial` and `C40_for_each_leaf` hold for it, and positions of the two roots and outside. -/
example : ∃ t, THist PTree.init t ∧ SplitsOk t ∧ RootsDisjoint t ∧ RootsInRange ⟨0, 0, 0⟩ t ∧ Enumerates [0, 1] t.roots ∧ t.leafKey 0 = false ∧
    (∀ x n, t.tree x = some n → (n.isLeaf = true ↔ n.linked ≠ u64max)) ∧
    ∃ s, serBuild (domainBox roundedArith ⟨3, 3, 3⟩ ⟨-5, 0, 0⟩ ⟨0, 0, 0⟩) t [0, 1] = .ok (s, [0, 9]) ∧
      patchOwner s [0, 9] ⟨20, 3, 5⟩ = .ok u64max ∧ patchOwner s [0, 9] ⟨7, 3, 5⟩ = .ok 15 ∧ patchOwner s [0, 9] ⟨-5, 3, 5⟩ = .ok 100 := by
  have h : (tRun exSer PTree.init).isSome := by decide +kernel
  obtain ⟨t, ht⟩ := Option.isSome_iff_exists.1 h
  have hh := tRun_hist exSer _ _ _ (THist.nil _) ht
  have H := hh.inv TInv.init
  have e : t = (tRun exSer PTree.init).getD PTree.init := by rw [ht]; rfl
  have hN : t.nextId = 10 := by rw [e]; decide +kernel
  have hlt : ∀ x n, t.tree x = some n → x < 10 := fun x n hx => by have := H.fresh x n hx; omega
  have hroot : ∀ x < 10, (t.roots x = true ↔ x = 0 ∨ x = 1) := by rw [e]; decide +kernel
  have hroots : ∀ x, t.roots x = true ↔ x = 0 ∨ x = 1 := by
    intro x
    by_cases hx : x < 10
    · exact hroot x hx
    · constructor
      · intro h
        obtain ⟨n, n1, _⟩ := (H.root x).1 h
        exact absurd (hlt x n n1) hx
      · intro h; omega
  have c0 : (t.tree 0).map (·.coord) = some ⟨⟨80, 0, 0⟩, ⟨159, 79, 79⟩⟩ := by rw [e]; decide +kernel
  have c1 : (t.tree 1).map (·.coord) = some ⟨⟨0, 0, 0⟩, ⟨79, 79, 79⟩⟩ := by rw [e]; decide +kernel
  refine ⟨t, hh, ?_, ?_, ?_, ?_, ?_, ?_, ?_⟩
  · have hk : ∀ x < 10, ∀ n ∈ t.tree x, n.isLeaf = false → n.coord = ⟨⟨80, 0, 0⟩, ⟨159, 79, 79⟩⟩ := by rw [e]; decide +kernel
    intro x n hx hl
    rw [hk x (hlt x n hx) n hx hl]
    unfold Splittable NotFull
    decide
  · intro a b na nb p ha hb hna hnb ca cb
    rcases (hroots a).1 ha with rfl | rfl <;> rcases (hroots b).1 hb with rfl | rfl
    · rfl
    · rw [hna, Option.map_some, Option.some.injEq] at c0
      rw [hnb, Option.map_some, Option.some.injEq] at c1
      rw [c0] at ca; rw [c1] at cb
      obtain ⟨⟨h1, _⟩, _⟩ := ca
      obtain ⟨⟨_, h2⟩, _⟩ := cb
      dsimp only at h1 h2
      omega
    · rw [hnb, Option.map_some, Option.some.injEq] at c0
      rw [hna, Option.map_some, Option.some.injEq] at c1
      rw [c1] at ca; rw [c0] at cb
      obtain ⟨⟨_, h1⟩, _⟩ := ca
      obtain ⟨⟨h2, _⟩, _⟩ := cb
      dsimp only at h1 h2
      omega
    · rfl
  · intro r n hr hn
    rcases (hroots r).1 hr with rfl | rfl
    · rw [hn, Option.map_some, Option.some.injEq] at c0
      rw [c0]; decide
    · rw [hn, Option.map_some, Option.some.injEq] at c1
      rw [c1]; decide
  · intro x; rw [hroots]; simp
  · rw [e]; decide +kernel
  · have hk : ∀ x < 10, ∀ n ∈ t.tree x, (n.isLeaf = true ↔ n.linked ≠ u64max) := by rw [e]; decide +kernel
    exact fun x n hx => hk x (hlt x n hx) n hx
  · rw [e]
    have : ((serBuild (domainBox roundedArith ⟨3, 3, 3⟩ ⟨-5, 0, 0⟩ ⟨0, 0, 0⟩) ((tRun exSer PTree.init).getD PTree.init) [0, 1]).bind fun r =>
      .ok (r.2, patchOwner r.1 [0, 9] ⟨20, 3, 5⟩, patchOwner r.1 [0, 9] ⟨7, 3, 5⟩, patchOwner r.1 [0, 9] ⟨-5, 3, 5⟩)) =
        .ok ([0, 9], .ok u64max, .ok 15, .ok 100) := by decide +kernel
    cases hb : serBuild (domainBox roundedArith ⟨3, 3, 3⟩ ⟨-5, 0, 0⟩ ⟨0, 0, 0⟩) ((tRun exSer PTree.init).getD PTree.init) [0, 1] with
    | ok r =>
      rw [hb] at this
      obtain ⟨s, ids⟩ := r
      simp only [Res.bind, Res.ok.injEq, Prod.mk.injEq] at this
      obtain ⟨rfl, a, b, c⟩ := this
      exact ⟨s, rfl, a, b, c⟩
    | throws => rw [hb] at this; cases this
    | ub => rw [hb] at this; cases this

/-- C40 is false as stated: with a single unsplit root a position outside of its box gets its patch id instead of the error id. -/
theorem C40_outside_defect : ∃ t, THist PTree.init t ∧ SplitsOk t ∧ Enumerates [0] t.roots ∧
    (∀ r n, t.roots r = true → t.tree r = some n → ¬ Contains roundedArith ⟨70, 70, 70⟩ ⟨0, 0, 0⟩ ⟨0, 0, 0⟩ (⟨1000, 3, 5⟩ : V3 Int) n) ∧
    ∃ s, serBuild (domainBox roundedArith ⟨70, 70, 70⟩ ⟨0, 0, 0⟩ ⟨0, 0, 0⟩) t [0] = .ok (s, [0]) ∧ patchOwner s [0] ⟨1000, 3, 5⟩ = .ok 7 := by
  have hh : THist PTree.init (PTree.init.insertRoot 7 ⟨⟨0, 0, 0⟩, ⟨63, 63, 63⟩⟩) :=
    THist.snoc (.root 7 ⟨⟨0, 0, 0⟩, ⟨63, 63, 63⟩⟩) (THist.nil _) (by show 0 + 1 ≤ 2 ^ 32; omega) rfl
  have H := hh.inv TInv.init
  have hN : (PTree.init.insertRoot 7 ⟨⟨0, 0, 0⟩, ⟨63, 63, 63⟩⟩).nextId = 1 := rfl
  have hlt : ∀ x n, (PTree.init.insertRoot 7 ⟨⟨0, 0, 0⟩, ⟨63, 63, 63⟩⟩).tree x = some n → x = 0 := fun x n hx => by
    have := H.fresh x n hx; omega
  have h0 : (PTree.init.insertRoot 7 ⟨⟨0, 0, 0⟩, ⟨63, 63, 63⟩⟩).tree 0 = some (PTNode.fresh ⟨⟨0, 0, 0⟩, ⟨63, 63, 63⟩⟩ 0 u64max 7) := by decide +kernel
  refine ⟨_, hh, ?_, ?_, ?_, ?_⟩
  · intro x n hx hl
    have := hlt x n hx
    subst this
    rw [h0, Option.some.injEq] at hx
    subst hx
    rw [fresh_isLeaf] at hl
    cases hl
  · intro x
    rw [H.root]
    constructor
    · intro hx
      rw [List.mem_singleton] at hx
      subst hx
      exact ⟨_, h0, fresh_parent _ _ _ _⟩
    · rintro ⟨n, hn, _⟩
      rw [hlt x n hn]; simp
  · intro r n _ hn
    have := hlt r n hn
    subst this
    rw [h0, Option.some.injEq] at hn
    subst hn
    intro hc
    have hc := hc.1.2
    revert hc
    decide +kernel
  · exact ⟨_, rfl, by decide +kernel⟩

end Shamrock
