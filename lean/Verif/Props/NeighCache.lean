import Verif.Proof.NeighCache
import Mathlib.Algebra.Order.Field.Basic
import Mathlib.Tactic.Positivity
import Mathlib.Tactic.NormNum
import Mathlib.Tactic.Linarith
/-! C54: the neighbour cache of the SPH solver. -/
namespace Shamrock

section
variable {F : Type} [LinearOrder F] {w : Nat}

/-- What is assumed of the rounded arithmetic: the operations are monotone (as IEEE operations are, for tolerances and kernel radii that are
not negative). -/
structure SphMono (S : SphArith F) : Prop where
  sub : ∀ a b c d, a ≤ b → c ≤ d → S.sub a d ≤ S.sub b c
  add : ∀ a b c d, a ≤ b → c ≤ d → S.add a c ≤ S.add b d
  htol : ∀ a b, a ≤ b → S.mul a S.htol ≤ S.mul b S.htol
  rkern : ∀ a b, a ≤ b → S.mul a S.rkern ≤ S.mul b S.rkern

/-- Interaction radius of particle `a`: smoothing length times tolerance. -/
def sphRad (S : SphArith F) (Hh : Nat → F) (a : Nat) : F := S.mul (Hh a) S.htol

/-- The particles interact: the squared distance is not above both squared kernel radii. -/
def sphNear (S : SphArith F) (X : Nat → V3 F) (Hh : Nat → F) (a b : Nat) : Bool :=
  S.interact (S.dist2 (X a) (X b)) (sphRad S Hh a) (sphRad S Hh b)

/-- `b` is in the (rounded) cube around `a` or `a` in the one around `b`. -/
def sphTouch (S : SphArith F) (X : Nat → V3 F) (Hh : Nat → F) (a b : Nat) : Prop :=
  BoxIn (X b) (X b) (S.vsub (X a) (S.mul (sphRad S Hh a) S.rkern)) (S.vadd (X a) (S.mul (sphRad S Hh a) S.rkern)) ∨
  BoxIn (X a) (X a) (S.vsub (X b) (S.mul (sphRad S Hh b) S.rkern)) (S.vadd (X b) (S.mul (sphRad S Hh b) S.rkern))

/-- What the cache of the first `n` of `N` particles must be: each particle has one list, without repetition, in which every particle
interacts with it and which misses no particle that interacts with it and is in its cube; the table is the concatenation of the lists. -/
def NeighSpec (S : SphArith F) (X : Nat → V3 F) (Hh : Nat → F) (n N : Nat) (c : ObjCache) : Prop :=
  ∃ L : Nat → List Nat, c.neigh = (List.range n).flatMap L ∧ c.sum.toNat = c.neigh.length ∧ ∀ a < n, c.forEach a = some (L a) ∧ (L a).Nodup ∧
    (∀ b ∈ L a, b < N ∧ sphNear S X Hh a b = true) ∧ ∀ b < N, sphNear S X Hh a b = true → sphTouch S X Hh a b → b ∈ L a

/-- Number of interacting pairs of the first `n` particles. -/
def sphPairs (S : SphArith F) (X : Nat → V3 F) (Hh : Nat → F) (n N : Nat) : Nat :=
  ((List.range n).map fun a => ((List.range N).filter fun b => sphNear S X Hh a b).length).sum

/-! ### Geometry -/

theorem cellNeigh_of {amin amax bmin bmax : V3 F} (ha : BoxIn amin amin amin amax) (hb : BoxIn bmin bmin bmin bmax)
    (h1 : BoxIn amin amin amin bmax) (h2 : BoxIn bmin bmin bmin amax) : cellNeigh amin amax bmin bmax = true := by
  unfold cellNeigh
  simp only [Bool.and_eq_true, decide_eq_true_eq]
  unfold BoxIn at *
  refine ⟨⟨?_, ?_⟩, ?_⟩
  · exact max_le (le_min ha.2.1 h1.2.1) (le_min h2.2.1 hb.2.1)
  · exact max_le (le_min ha.2.2.1 h1.2.2.1) (le_min h2.2.2.1 hb.2.2.1)
  · exact max_le (le_min ha.2.2.2 h1.2.2.2) (le_min h2.2.2.2 hb.2.2.2)

/-- Componentwise order. -/
def vle (a b : V3 F) : Prop := a.x ≤ b.x ∧ a.y ≤ b.y ∧ a.z ≤ b.z

theorem vle_trans {a b c : V3 F} (h : vle a b) (h' : vle b c) : vle a c := ⟨h.1.trans h'.1, h.2.1.trans h'.2.1, h.2.2.trans h'.2.2⟩
theorem vle_refl (a : V3 F) : vle a a := ⟨le_refl _, le_refl _, le_refl _⟩
theorem boxIn_iff (p q a b : V3 F) : BoxIn p q a b ↔ vle a p ∧ vle q b := Iff.rfl

theorem cellNeigh_vle {amin amax bmin bmax : V3 F} (ha : vle amin amax) (hb : vle bmin bmax) (h1 : vle amin bmax) (h2 : vle bmin amax) :
    cellNeigh amin amax bmin bmax = true := cellNeigh_of ⟨vle_refl _, ha⟩ ⟨vle_refl _, hb⟩ ⟨vle_refl _, h1⟩ ⟨vle_refl _, h2⟩

theorem vsub_mono {S : SphArith F} (M : SphMono S) {a b : V3 F} {c d : F} (h : vle a b) (h' : c ≤ d) : vle (S.vsub a d) (S.vsub b c) :=
  ⟨M.sub _ _ _ _ h.1 h', M.sub _ _ _ _ h.2.1 h', M.sub _ _ _ _ h.2.2 h'⟩
theorem vadd_mono {S : SphArith F} (M : SphMono S) {a b : V3 F} {c d : F} (h : vle a b) (h' : c ≤ d) : vle (S.vadd a c) (S.vadd b d) :=
  ⟨M.add _ _ _ _ h.1 h', M.add _ _ _ _ h.2.1 h', M.add _ _ _ _ h.2.2 h'⟩

/-- A cell that contains `b` is accepted by particle `a` when they touch. -/
theorem sphAccept_of {S : SphArith F} (M : SphMono S) {X : Nat → V3 F} {Hh : Nat → F} {a b : Nat} (ht : sphTouch S X Hh a b) {rint : List F}
    {id : Nat} {v : F} (hr : rint[id]? = some (S.mul v S.htol)) (hv : Hh b ≤ v) {cmin cmax : V3 F} (hb : BoxIn (X b) (X b) cmin cmax) :
    sphAccept S rint (X a) (sphRad S Hh a) id cmin cmax = true := by
  obtain ⟨b1, b2⟩ := hb
  unfold sphAccept
  rw [hr]
  unfold sphCellCrit
  simp only [Bool.or_eq_true]
  have hv' := M.rkern _ _ (M.htol _ _ hv)
  rcases ht with ⟨t1, t2⟩ | ⟨t1, t2⟩
  · left
    exact cellNeigh_vle (vle_trans t1 t2) (vle_trans b1 b2) (vle_trans t1 b2) (vle_trans b1 t2)
  · right
    have e1 : vle (S.vsub cmin (S.mul (S.mul v S.htol) S.rkern)) (X a) := vle_trans (vsub_mono M b1 hv') t1
    have e2 : vle (X a) (S.vadd cmax (S.mul (S.mul v S.htol) S.rkern)) := vle_trans t2 (vadd_mono M b2 hv')
    exact cellNeigh_vle (vle_refl _) (vle_trans e1 e2) e2 e1

/-- A cell that contains `b` is accepted by a leaf that contains `a` when they touch. -/
theorem leafAccept_of {S : SphArith F} (M : SphMono S) {X : Nat → V3 F} {Hh : Nat → F} {a b : Nat} (ht : sphTouch S X Hh a b) {rint : List F}
    {id : Nat} {v u : F} (hr : rint[id]? = some (S.mul v S.htol)) (hv : Hh b ≤ v) (hu : Hh a ≤ u) {cmin cmax lmin lmax : V3 F}
    (hb : BoxIn (X b) (X b) cmin cmax) (ha : BoxIn (X a) (X a) lmin lmax) :
    leafAccept S rint lmin lmax (S.mul (S.mul u S.htol) S.rkern) id cmin cmax = true := by
  obtain ⟨b1, b2⟩ := hb
  obtain ⟨a1, a2⟩ := ha
  unfold leafAccept
  rw [hr]
  simp only [Bool.or_eq_true]
  have hv' := M.rkern _ _ (M.htol _ _ hv)
  have hu' := M.rkern _ _ (M.htol _ _ hu)
  rcases ht with ⟨t1, t2⟩ | ⟨t1, t2⟩
  · right
    have e1 : vle (S.vsub lmin (S.mul (S.mul u S.htol) S.rkern)) (X b) := vle_trans (vsub_mono M a1 hu') t1
    have e2 : vle (X b) (S.vadd lmax (S.mul (S.mul u S.htol) S.rkern)) := vle_trans t2 (vadd_mono M a2 hu')
    exact cellNeigh_vle (vle_trans e1 e2) (vle_trans b1 b2) (vle_trans e1 b2) (vle_trans b1 e2)
  · left
    have e1 : vle (S.vsub cmin (S.mul (S.mul v S.htol) S.rkern)) (X a) := vle_trans (vsub_mono M b1 hv') t1
    have e2 : vle (X a) (S.vadd cmax (S.mul (S.mul v S.htol) S.rkern)) := vle_trans t2 (vadd_mono M b2 hv')
    exact cellNeigh_vle (vle_trans a1 a2) (vle_trans e1 e2) (vle_trans a1 e2) (vle_trans e1 a2)

theorem isBox_in {X : Nat → V3 F} {objs : List Nat} {a b : V3 F} (h : IsBox X X objs a b) (i : Nat) (hi : i ∈ objs) : BoxIn (X i) (X i) a b :=
  ⟨⟨h.1.1.1 i hi, h.1.2.1.1 i hi, h.1.2.2.1 i hi⟩, ⟨h.2.1.1 i hi, h.2.2.1.1 i hi, h.2.2.2.1 i hi⟩⟩

/-! ### From the runs to the cache -/

theorem sum_le_of_le (f g : Nat → Nat) : ∀ l : List Nat, (∀ a ∈ l, f a ≤ g a) → (l.map f).sum ≤ (l.map g).sum := by
  intro l
  induction l with
  | nil => intro _; simp
  | cons a l ih =>
    intro h
    have := h a (by simp)
    have := ih (fun b hb => h b (by simp [hb]))
    simp only [List.map_cons, List.sum_cons]
    omega

theorem spec_of_runs (S : SphArith F) (X : Nat → V3 F) (Hh : Nat → F) (n N : Nat) (hn : 0 < n) (hsz : sphPairs S X Hh n N < 2 ^ 32)
    (junk : Nat → Nat) (order : List Nat) (hord : order.Perm (List.range n)) (item : Nat → Option (List Nat))
    (hitem : ∀ a < n, ∃ l, item a = some l ∧ l.Nodup ∧ (∀ b ∈ l, b < N ∧ sphNear S X Hh a b = true) ∧
      ∀ b < N, sphNear S X Hh a b = true → sphTouch S X Hh a b → b ∈ l) :
    ∃ runs c, (List.range n).mapM item = some runs ∧ buildCache junk order runs = some c ∧ NeighSpec S X Hh n N c := by
  have hch : ∀ a, ∃ l, a < n → item a = some l ∧ l.Nodup ∧ (∀ b ∈ l, b < N ∧ sphNear S X Hh a b = true) ∧
      ∀ b < N, sphNear S X Hh a b = true → sphTouch S X Hh a b → b ∈ l := by
    intro a
    by_cases ha : a < n
    · obtain ⟨l, h⟩ := hitem a ha; exact ⟨l, fun _ => h⟩
    · exact ⟨[], fun h => absurd h ha⟩
  choose L hL using hch
  have hlen : ((List.range n).map L).flatten.length < 2 ^ 32 := by
    rw [List.length_flatten, List.map_map]
    refine lt_of_le_of_lt (sum_le_of_le _ (fun a => ((List.range N).filter fun b => sphNear S X Hh a b).length) _ ?_) hsz
    intro a ha
    obtain ⟨_, h1, h2, _⟩ := hL a (List.mem_range.1 ha)
    refine List.Subperm.length_le (h1.subperm ?_)
    intro b hb
    rw [List.mem_filter, List.mem_range]
    exact h2 b hb
  obtain ⟨c, c1, c2, c3, c4⟩ := buildCache_ok junk order ((List.range n).map L) (by simpa using hn) (by simpa using hord) hlen
  refine ⟨_, c, mapM_range_some n _ L (fun a ha => (hL a ha).1), c1, L, by rw [c2, List.flatMap_def], by rw [c3, c2], ?_⟩
  intro a ha
  refine ⟨c4 a (L a) (by rw [List.getElem?_map, List.getElem?_range ha]; rfl), (hL a ha).2⟩

variable {A : GridArith F} {C : MCode w} {env : BVHEnv F} {big small : F} {xyz : List (V3 F)} {X : Nat → V3 F}
  {objCnt : BitVec 32} {lo hi : V3 F} {t : BVH F}

/-- The tree of the particles and the radii of its cells. -/
structure SphTree (t : BVH F) (S : SphArith F) (small : F) (hpart : List F) (Hh : Nat → F) (N w : Nat) (scheds : List (List Nat))
    (old : Nat → F) (rint : List F) : Prop where
  mono : SphMono S
  lower : ∀ i < N, hpart[i]? = some (Hh i)
  above : ∀ i < N, small ≤ Hh i
  launch : scheds.length = karrasTreeDepth w
  field : rintField S small hpart t.sortMap t.redMap t.nodes scheds old = some rint

/-- C54 (radii). Whatever the schedule and the contents of the new buffer, the radius field is computed, with one entry per cell, and the
entry of a cell is the largest smoothing length of its particles times the tolerance. -/
theorem C54_cell_radii (H : BVHIn A C env big small xyz xyz X X objCnt lo hi) (level : Nat)
    (ht : rebuildFromPositions A C env big small xyz objCnt lo hi level = .ok t) (S : SphArith F) (sm : F) (hpart : List F) (Hh : Nat → F)
    (hl : ∀ i < objCnt.toNat, hpart[i]? = some (Hh i)) (ha : ∀ i < objCnt.toNat, sm ≤ Hh i) (scheds : List (List Nat))
    (hs : scheds.length = karrasTreeDepth w) (old : Nat → F) :
    ∃ rint, rintField S sm hpart t.sortMap t.redMap t.nodes scheds old = some rint ∧ rint.length = 2 * t.nodes.length + 1 ∧
      ∀ id < 2 * t.nodes.length + 1, ∃ objs v, forEachInCell t.sortMap t.redMap t.nodes id = some objs ∧ rint[id]? = some (S.mul v S.htol) ∧
        (∃ i ∈ objs, Hh i = v) ∧ ∀ i ∈ objs, Hh i ≤ v := by
  obtain ⟨t', T, st, h1, h2, h3, h4, h5⟩ := rebuild_ok H level
  unfold rebuildFromPositions at ht
  rw [ht, Res.ok.injEq] at h1
  subst h1
  obtain ⟨buf, f1, f2, f3⟩ := rintField_ok h2 S sm hpart Hh hl ha scheds (by
    rw [hs]; have := H.code.1; unfold karrasTreeDepth; omega) old
  refine ⟨buf, f1, f2, ?_⟩
  intro id hid
  obtain ⟨R, hR, rfl⟩ := (whole_cells h2.whole id).1 hid
  obtain ⟨v, v1, v2⟩ := f3 R hR
  exact ⟨_, v, forEachInCell_ok h2 R hR, v1, v2.2, v2.1⟩

/-- C54 (direct search). For every set of particles, every schedule and every content of the new buffers, the cache holds for each particle
a list without repetition of particles that interact with it, and misses none that is in the (rounded) interaction cube. -/
theorem C54_direct (H : BVHIn A C env big small xyz xyz X X objCnt lo hi) (level : Nat)
    (ht : rebuildFromPositions A C env big small xyz objCnt lo hi level = .ok t) (S : SphArith F) (sm : F) (hpart : List F) (Hh : Nat → F)
    (scheds : List (List Nat)) (old : Nat → F) (rint : List F) (D : SphTree t S sm hpart Hh objCnt.toNat w scheds old rint) (n : Nat)
    (hn : 0 < n) (hnN : n ≤ objCnt.toNat) (hsz : sphPairs S X Hh n objCnt.toNat < 2 ^ 32) (junk : Nat → Nat) (order : List Nat)
    (hord : order.Perm (List.range n)) :
    ∃ c, neighCacheDirect S C t rint xyz hpart n junk order = some c ∧ NeighSpec S X Hh n objCnt.toNat c := by
  obtain ⟨t', T, st, h1, h2, h3, h4, h5⟩ := rebuild_ok H level
  unfold rebuildFromPositions at ht
  rw [ht, Res.ok.injEq] at h1
  subst h1
  obtain ⟨buf, f1, f2, f3⟩ := rintField_ok h2 S sm hpart Hh D.lower D.above scheds (by
    rw [D.launch]; have := H.code.1; unfold karrasTreeDepth; omega) old
  rw [D.field, Option.some.injEq] at f1
  subst f1
  have hlim := H.lim
  have key := spec_of_runs S X Hh n objCnt.toNat hn hsz junk order hord (directItem S C t rint xyz hpart)
  suffices hitem : _ by
    obtain ⟨runs, c, r1, r2, r3⟩ := key hitem
    refine ⟨c, ?_, r3⟩
    unfold neighCacheDirect
    rw [r1]; exact r2
  · intro a ha
    have haN : a < objCnt.toNat := by omega
    have hfl : ∀ b ∈ (foundLeaves t.nodes.length (T.visit t.nodes.length (boxCond t (sphAccept S rint (X a) (S.mul (Hh a) S.htol))))).flatMap
        (leafObjs t.sortMap st), b < objCnt.toNat := by
      intro b hb
      obtain ⟨k, hk, hbk⟩ := List.mem_flatMap.1 hb
      exact mem_leafObjs_lt h2 k (found_le h2 _ k hk) b hbk
    refine ⟨_, ?_, (found_objs_nodup h2 (boxCond t (sphAccept S rint (X a) (S.mul (Hh a) S.htol)))).filter
      (fun b => S.interact (S.dist2 (X a) (X b)) (S.mul (Hh a) S.htol) (S.mul (Hh b) S.htol)), ?_, ?_⟩
    · unfold directItem
      rw [D.lower a haN, H.lower a haN]
      simp only [Option.bind_eq_bind, Option.bind_some]
      rw [rtreeFor_ok C t h2 (by omega), Option.bind_some, keepNeigh_ok S xyz hpart X Hh objCnt.toNat H.lower D.lower _ _ _ hfl]
    · intro b hb
      rw [List.mem_filter] at hb
      exact ⟨hfl b hb.1, hb.2⟩
    · intro b hbN hnear htouch
      rw [List.mem_filter]
      refine ⟨?_, hnear⟩
      obtain ⟨k, hk, hbk⟩ := obj_leaf h2 b hbN
      refine List.mem_flatMap.2 ⟨k, found_of h2 _ k hk ?_, hbk⟩
      intro R hR hkR
      obtain ⟨u, v, hu, hv, hbox⟩ := h5 R hR
      obtain ⟨r, hr, hr'⟩ := f3 R hR
      unfold boxCond
      rw [hu, hv]
      have hm : b ∈ R.leaves.flatMap (leafObjs t.sortMap st) := List.mem_flatMap.2 ⟨k, hkR, hbk⟩
      exact sphAccept_of D.mono htouch hr (hr'.1 b hm) (isBox_in hbox b hm)

/-- C54 (two stage search). Under the same conditions, if the pairs of leaves can be counted, the two stage search satisfies the same
specification; in particular every particle finds its own leaf. -/
theorem C54_two_stage (H : BVHIn A C env big small xyz xyz X X objCnt lo hi) (level : Nat)
    (ht : rebuildFromPositions A C env big small xyz objCnt lo hi level = .ok t) (S : SphArith F) (sm : F) (hpart : List F) (Hh : Nat → F)
    (scheds : List (List Nat)) (old : Nat → F) (rint : List F) (D : SphTree t S sm hpart Hh objCnt.toNat w scheds old rint) (n : Nat)
    (hn : 0 < n) (hnN : n ≤ objCnt.toNat) (hsz : sphPairs S X Hh n objCnt.toNat < 2 ^ 32)
    (hleaf : ∀ ls, (List.range (t.nodes.length + 1)).mapM (leafItem S C t rint) = some ls → ls.flatten.length < 2 ^ 32)
    (junkL junk : Nat → Nat) (orderL order : List Nat) (hordL : orderL.Perm (List.range (t.nodes.length + 1)))
    (hord : order.Perm (List.range n)) :
    ∃ c, neighCacheTwoStage S C t rint xyz hpart n junkL junk orderL order = some c ∧ NeighSpec S X Hh n objCnt.toNat c := by
  have hdis := C52_leaf_boxes_disjoint H level t ht
  obtain ⟨t', T, st, h1, h2, h3, h4, h5⟩ := rebuild_ok H level
  unfold rebuildFromPositions at ht
  rw [ht, Res.ok.injEq] at h1
  subst h1
  obtain ⟨buf, f1, f2, f3⟩ := rintField_ok h2 S sm hpart Hh D.lower D.above scheds (by
    rw [D.launch]; have := H.code.1; unfold karrasTreeDepth; omega) old
  rw [D.field, Option.some.injEq] at f1
  subst f1
  have hlim := H.lim
  have hcells := h2.cells
  have hidx : ∀ k, cellIdx t.nodes.length (KTree.leaf k).ref = t.nodes.length + k := by
    intro k; simp [KTree.ref, cellIdx, Nat.add_comm]
  -- boxes and radii of the leaves
  have hlb : ∀ k ≤ t.nodes.length, ∃ lmin lmax v, t.bmin[t.nodes.length + k]? = some lmin ∧ t.bmax[t.nodes.length + k]? = some lmax ∧
      rint[t.nodes.length + k]? = some (S.mul v S.htol) ∧ ∀ i ∈ leafObjs t.sortMap st k, BoxIn (X i) (X i) lmin lmax ∧ Hh i ≤ v := by
    intro k hk
    obtain ⟨u, v, hu, hv, hb⟩ := h5 (.leaf k) (whole_subtree_leaf h2.whole k hk)
    obtain ⟨r, hr, hr'⟩ := f3 (.leaf k) (whole_subtree_leaf h2.whole k hk)
    rw [hidx] at hu hv hr
    simp only [KTree.leaves, List.flatMap_cons, List.flatMap_nil, List.append_nil] at hb hr'
    exact ⟨u, v, r, hu, hv, hr, fun i hi => ⟨isBox_in hb i hi, hr'.1 i hi⟩⟩
  have hlb' : ∀ k, ∃ q : V3 F × V3 F × F, k ≤ t.nodes.length → t.bmin[t.nodes.length + k]? = some q.1 ∧ t.bmax[t.nodes.length + k]? = some q.2.1 ∧
      rint[t.nodes.length + k]? = some (S.mul q.2.2 S.htol) ∧ ∀ i ∈ leafObjs t.sortMap st k, BoxIn (X i) (X i) q.1 q.2.1 ∧ Hh i ≤ q.2.2 := by
    intro k
    by_cases hk : k ≤ t.nodes.length
    · obtain ⟨a, b, c, h⟩ := hlb k hk; exact ⟨(a, b, c), fun _ => h⟩
    · exact ⟨(lo, lo, sm), fun h => absurd h hk⟩
  choose q hq using hlb'
  -- the leaf cache
  have hLi : ∀ k < t.nodes.length + 1, leafItem S C t rint k = some ((foundLeaves t.nodes.length (T.visit t.nodes.length
      (boxCond t (leafAccept S rint (q k).1 (q k).2.1 (S.mul (S.mul (q k).2.2 S.htol) S.rkern))))).map (t.nodes.length + ·)) := by
    intro k hk
    obtain ⟨q1, q2, q3, _⟩ := hq k (by omega)
    unfold leafItem
    rw [q1, q2, q3]
    simp only [Option.bind_eq_bind, Option.bind_some]
    exact rtreeLeaves_ok C t h2 _
  have hls := mapM_range_some (t.nodes.length + 1) _ _ hLi
  obtain ⟨lc, l1, _, _, l4⟩ := buildCache_ok junkL orderL _ (by simp) (by simpa using hordL) (hleaf _ hls)
  -- the leaf of each particle
  have hown : ∀ a < n, ∃ k ≤ t.nodes.length, a ∈ leafObjs t.sortMap st k ∧ ownerItem C t xyz a = some k := by
    intro a ha
    obtain ⟨k, hk, hak⟩ := obj_leaf h2 a (by omega)
    refine ⟨k, hk, hak, ?_⟩
    unfold ownerItem
    rw [H.lower a (by omega)]
    simp only [Option.bind_eq_bind, Option.bind_some]
    rw [rtreeLeaves_ok C t h2, Option.bind_some]
    have hfound : foundLeaves t.nodes.length (T.visit t.nodes.length (boxCond t fun _ lo hi => inRangeIncl (X a) lo hi)) = [k] := by
      refine List.perm_singleton.1 ?_
      rw [List.perm_ext_iff_of_nodup (found_nodup h2 _) (by simp)]
      intro j
      rw [List.mem_singleton]
      constructor
      · intro hj
        have hjl := found_le h2 _ j hj
        have hacc := found_accepted h2 _ j hj
        obtain ⟨j1, j2, _, _⟩ := hq j hjl
        obtain ⟨k1, k2, _, k4⟩ := hq k hk
        unfold boxCond inRangeIncl at hacc
        rw [j1, j2] at hacc
        simp only [Bool.and_eq_true, decide_eq_true_eq] at hacc
        obtain ⟨⟨⟨⟨⟨e1, e2⟩, e3⟩, e4⟩, e5⟩, e6⟩ := hacc
        exact hdis j k _ _ _ _ (X a) hjl hk j1 j2 k1 k2 ⟨⟨e1, e3, e5⟩, ⟨e2, e4, e6⟩⟩ (k4 a hak).1
      · rintro rfl
        refine found_of h2 _ j hk ?_
        intro R hR hkR
        obtain ⟨u, v, hu, hv, hbox⟩ := h5 R hR
        obtain ⟨⟨e1, e3, e5⟩, ⟨e2, e4, e6⟩⟩ := isBox_in hbox a (List.mem_flatMap.2 ⟨j, hkR, hak⟩)
        unfold boxCond inRangeIncl
        rw [hu, hv]
        simp only [Bool.and_eq_true, decide_eq_true_eq]
        exact ⟨⟨⟨⟨⟨e1, e2⟩, e3⟩, e4⟩, e5⟩, e6⟩
    rw [hfound]
    have : u32sub (t.nodes.length + k) t.nodes.length = k := by unfold u32sub; omega
    simp [this]
  have hown' : ∀ a, ∃ k, a < n → k ≤ t.nodes.length ∧ a ∈ leafObjs t.sortMap st k ∧ ownerItem C t xyz a = some k := by
    intro a
    by_cases ha : a < n
    · obtain ⟨k, h⟩ := hown a ha; exact ⟨k, fun _ => h⟩
    · exact ⟨0, fun h => absurd h ha⟩
  choose own hown'' using hown'
  have how := mapM_range_some n _ own (fun a ha => (hown'' a ha).2.2)
  have key := spec_of_runs S X Hh n objCnt.toNat hn hsz junk order hord (twoStageItem S t lc ((List.range n).map own) xyz hpart)
  suffices hitem : _ by
    obtain ⟨runs, c, r1, r2, r3⟩ := key hitem
    refine ⟨c, ?_, r3⟩
    unfold neighCacheTwoStage
    rw [hls]
    simp only [Option.bind_eq_bind, Option.bind_some]
    rw [l1, Option.bind_some, how, Option.bind_some, r1]; exact r2
  · intro a ha
    have haN : a < objCnt.toNat := by omega
    obtain ⟨o1, o2, _⟩ := hown'' a ha
    obtain ⟨q1, q2, q3, q4⟩ := hq (own a) o1
    have hfl : ∀ b ∈ (foundLeaves t.nodes.length (T.visit t.nodes.length (boxCond t (leafAccept S rint (q (own a)).1 (q (own a)).2.1
        (S.mul (S.mul (q (own a)).2.2 S.htol) S.rkern))))).flatMap (leafObjs t.sortMap st), b < objCnt.toNat := by
      intro b hb
      obtain ⟨k, hk, hbk⟩ := List.mem_flatMap.1 hb
      exact mem_leafObjs_lt h2 k (found_le h2 _ k hk) b hbk
    refine ⟨_, ?_, (found_objs_nodup h2 (boxCond t (leafAccept S rint (q (own a)).1 (q (own a)).2.1
        (S.mul (S.mul (q (own a)).2.2 S.htol) S.rkern)))).filter
      (fun b => S.interact (S.dist2 (X a) (X b)) (S.mul (Hh a) S.htol) (S.mul (Hh b) S.htol)), ?_, ?_⟩
    · unfold twoStageItem
      rw [D.lower a haN, H.lower a haN]
      simp only [Option.bind_eq_bind, Option.bind_some]
      rw [List.getElem?_map, List.getElem?_range ha]
      simp only [Option.map_some, Option.bind_some]
      rw [l4 (own a) _ (by rw [List.getElem?_map, List.getElem?_range (by omega)]; rfl), Option.bind_some, List.mapM_map,
        mapM_opt_map _ (leafObjs t.sortMap st) _ (by
          intro k hk
          have hkl := found_le h2 _ k hk
          have : u32sub (t.nodes.length + k) t.nodes.length = k := by unfold u32sub; omega
          simp only [Function.comp_apply, this]
          exact forEachInLeaf_ok h2 k hkl)]
      rw [Option.bind_some, ← List.flatMap_def, keepNeigh_ok S xyz hpart X Hh objCnt.toNat H.lower D.lower _ _ _ hfl]
    · intro b hb
      rw [List.mem_filter] at hb
      exact ⟨hfl b hb.1, hb.2⟩
    · intro b hbN hnear htouch
      rw [List.mem_filter]
      refine ⟨?_, hnear⟩
      obtain ⟨k, hk, hbk⟩ := obj_leaf h2 b hbN
      refine List.mem_flatMap.2 ⟨k, found_of h2 _ k hk ?_, hbk⟩
      intro R hR hkR
      obtain ⟨u, v, hu, hv, hbox⟩ := h5 R hR
      obtain ⟨r, hr, hr'⟩ := f3 R hR
      unfold boxCond
      rw [hu, hv]
      have hm : b ∈ R.leaves.flatMap (leafObjs t.sortMap st) := List.mem_flatMap.2 ⟨k, hkR, hbk⟩
      exact leafAccept_of D.mono htouch hr (hr'.1 b hm) (q4 a o2).2 (isBox_in hbox b hm) (q4 a o2).1
end

/-! ### Exact arithmetic -/

section
variable {K : Type} [CommRing K] [LinearOrder K] [IsStrictOrderedRing K]

/-- Arithmetic without rounding. -/
def exactSph (htol rkern : K) : SphArith K := ⟨(· + ·), (· - ·), (· * ·), htol, rkern⟩

/-- The real definition of neighbours: the distance is at most the kernel radius of the larger of the two interaction radii. -/
def inKernel (htol rkern : K) (X : Nat → V3 K) (Hh : Nat → K) (a b : Nat) : Prop :=
  ((X a).x - (X b).x) ^ 2 + ((X a).y - (X b).y) ^ 2 + ((X a).z - (X b).z) ^ 2 ≤ (rkern * (htol * max (Hh a) (Hh b))) ^ 2

theorem exactSph_mono (htol rkern : K) (h1 : 0 ≤ htol) (h2 : 0 ≤ rkern) : SphMono (exactSph htol rkern) where
  sub a b c d h h' := by show a - d ≤ b - c; linarith
  add a b c d h h' := by show a + c ≤ b + d; linarith
  htol a b h := mul_le_mul_of_nonneg_right h h1
  rkern a b h := mul_le_mul_of_nonneg_right h h2

theorem sphNear_exact (htol rkern : K) (h1 : 0 ≤ htol) (h2 : 0 ≤ rkern) (X : Nat → V3 K) (Hh : Nat → K) (a b : Nat) (ha : 0 ≤ Hh a)
    (hb : 0 ≤ Hh b) : sphNear (exactSph htol rkern) X Hh a b = true ↔ inKernel htol rkern X Hh a b := by
  unfold sphNear SphArith.interact inKernel sphRad SphArith.dist2 exactSph
  simp only [Bool.not_eq_true', Bool.and_eq_false_iff, decide_eq_false_iff_not, not_lt]
  have e : ∀ u : K, u * htol * (u * htol) * (rkern * rkern) = (rkern * (htol * u)) ^ 2 := fun u => by ring
  rw [e, e]
  have d : ((X a).x - (X b).x) * ((X a).x - (X b).x) + ((X a).y - (X b).y) * ((X a).y - (X b).y) + ((X a).z - (X b).z) * ((X a).z - (X b).z) =
      ((X a).x - (X b).x) ^ 2 + ((X a).y - (X b).y) ^ 2 + ((X a).z - (X b).z) ^ 2 := by ring
  rw [d]
  have m : ∀ u v : K, 0 ≤ u → u ≤ v → (rkern * (htol * u)) ^ 2 ≤ (rkern * (htol * v)) ^ 2 := by
    intro u v hu huv
    exact pow_le_pow_left₀ (by positivity) (mul_le_mul_of_nonneg_left (mul_le_mul_of_nonneg_left huv h1) h2) 2
  constructor
  · rintro (h | h)
    · exact h.trans (m _ _ ha (le_max_left _ _))
    · exact h.trans (m _ _ hb (le_max_right _ _))
  · intro h
    rcases le_total (Hh a) (Hh b) with hab | hab
    · right; rwa [max_eq_right hab] at h
    · left; rwa [max_eq_left hab] at h

theorem abs_of_sq_sum (x y z r : K) (hr : 0 ≤ r) (h : x ^ 2 + y ^ 2 + z ^ 2 ≤ r ^ 2) : |x| ≤ r ∧ |y| ≤ r ∧ |z| ≤ r := by
  have hx := sq_nonneg x
  have hy := sq_nonneg y
  have hz := sq_nonneg z
  exact ⟨abs_le_of_sq_le_sq (by linarith) hr, abs_le_of_sq_le_sq (by linarith) hr,
    abs_le_of_sq_le_sq (by linarith) hr⟩

theorem sphTouch_exact (htol rkern : K) (h1 : 0 ≤ htol) (h2 : 0 ≤ rkern) (X : Nat → V3 K) (Hh : Nat → K) (a b : Nat) (ha : 0 ≤ Hh a)
    (hb : 0 ≤ Hh b) (h : inKernel htol rkern X Hh a b) : sphTouch (exactSph htol rkern) X Hh a b := by
  unfold inKernel at h
  unfold sphTouch BoxIn sphRad SphArith.vsub SphArith.vadd exactSph
  simp only
  rcases le_total (Hh a) (Hh b) with hab | hab
  · right
    rw [max_eq_right hab] at h
    obtain ⟨hx, hy, hz⟩ := abs_of_sq_sum _ _ _ _ (by positivity) h
    have e : Hh b * htol * rkern = rkern * (htol * Hh b) := by ring
    rw [e]
    rw [abs_le] at hx hy hz
    refine ⟨⟨?_, ?_, ?_⟩, ⟨?_, ?_, ?_⟩⟩ <;> linarith [hx.1, hx.2, hy.1, hy.2, hz.1, hz.2]
  · left
    rw [max_eq_left hab] at h
    obtain ⟨hx, hy, hz⟩ := abs_of_sq_sum _ _ _ _ (by positivity) h
    have e : Hh a * htol * rkern = rkern * (htol * Hh a) := by ring
    rw [e]
    rw [abs_le] at hx hy hz
    refine ⟨⟨?_, ?_, ?_⟩, ⟨?_, ?_, ?_⟩⟩ <;> linarith [hx.1, hx.2, hy.1, hy.2, hz.1, hz.2]

/-- C54 (exact arithmetic). Without rounding both searches give each particle exactly the particles within the larger kernel radius, itself
included, each once. -/
theorem C54_exact (htol rkern : K) (h1 : 0 ≤ htol) (h2 : 0 ≤ rkern) (X : Nat → V3 K) (Hh : Nat → K) (n N : Nat) (hn : n ≤ N)
    (hh : ∀ i < N, 0 ≤ Hh i) (c : ObjCache) (hc : NeighSpec (exactSph htol rkern) X Hh n N c) (a : Nat) (ha : a < n) :
    ∃ l, c.forEach a = some l ∧ l.Nodup ∧ ∀ b, b ∈ l ↔ b < N ∧ inKernel htol rkern X Hh a b := by
  obtain ⟨L, _, _, hL⟩ := hc
  obtain ⟨l1, l2, l3, l4⟩ := hL a ha
  refine ⟨_, l1, l2, ?_⟩
  intro b
  constructor
  · intro hb
    obtain ⟨hbN, hnear⟩ := l3 b hb
    exact ⟨hbN, (sphNear_exact htol rkern h1 h2 X Hh a b (hh a (by omega)) (hh b hbN)).1 hnear⟩
  · rintro ⟨hbN, hk⟩
    exact l4 b hbN ((sphNear_exact htol rkern h1 h2 X Hh a b (hh a (by omega)) (hh b hbN)).2 hk)
      (sphTouch_exact htol rkern h1 h2 X Hh a b (hh a (by omega)) (hh b hbN) hk)

/-- C54 (symmetry). Without rounding the neighbour relation of two particles of the patch is symmetric. -/
theorem C54_symmetric (htol rkern : K) (h1 : 0 ≤ htol) (h2 : 0 ≤ rkern) (X : Nat → V3 K) (Hh : Nat → K) (n N : Nat) (hn : n ≤ N)
    (hh : ∀ i < N, 0 ≤ Hh i) (c : ObjCache) (hc : NeighSpec (exactSph htol rkern) X Hh n N c) (a b : Nat) (ha : a < n) (hb : b < n)
    (la lb : List Nat) (hla : c.forEach a = some la) (hlb : c.forEach b = some lb) : b ∈ la ↔ a ∈ lb := by
  obtain ⟨l, l1, _, l3⟩ := C54_exact htol rkern h1 h2 X Hh n N hn hh c hc a ha
  obtain ⟨m, m1, _, m3⟩ := C54_exact htol rkern h1 h2 X Hh n N hn hh c hc b hb
  rw [hla, Option.some.injEq] at l1
  rw [hlb, Option.some.injEq] at m1
  subst l1 m1
  rw [l3, m3]
  have : inKernel htol rkern X Hh a b ↔ inKernel htol rkern X Hh b a := by
    unfold inKernel
    rw [max_comm (Hh b), show ((X b).x - (X a).x) ^ 2 = ((X a).x - (X b).x) ^ 2 by ring,
      show ((X b).y - (X a).y) ^ 2 = ((X a).y - (X b).y) ^ 2 by ring, show ((X b).z - (X a).z) ^ 2 = ((X a).z - (X b).z) ^ 2 by ring]
  rw [this]
  constructor
  · rintro ⟨_, h⟩; exact ⟨by omega, h⟩
  · rintro ⟨_, h⟩; exact ⟨by omega, h⟩

/-- C54 (agreement). Without rounding, two caches that meet the specification (one from each search, say) give every particle the same
neighbours up to order. -/
theorem C54_searches_agree (htol rkern : K) (h1 : 0 ≤ htol) (h2 : 0 ≤ rkern) (X : Nat → V3 K) (Hh : Nat → K) (n N : Nat) (hn : n ≤ N)
    (hh : ∀ i < N, 0 ≤ Hh i) (c c' : ObjCache) (hc : NeighSpec (exactSph htol rkern) X Hh n N c)
    (hc' : NeighSpec (exactSph htol rkern) X Hh n N c') (a : Nat) (ha : a < n) :
    ∃ l l', c.forEach a = some l ∧ c'.forEach a = some l' ∧ l.Perm l' := by
  obtain ⟨l, l1, l2, l3⟩ := C54_exact htol rkern h1 h2 X Hh n N hn hh c hc a ha
  obtain ⟨m, m1, m2, m3⟩ := C54_exact htol rkern h1 h2 X Hh n N hn hh c' hc' a ha
  refine ⟨l, m, l1, m1, (List.perm_ext_iff_of_nodup l2 m2).2 fun b => ?_⟩
  rw [l3, m3]

end

/-! ### A concrete case -/

/-- Five particles, radii 1000 (the third one 6000). -/
def nxH : List Int := [1000, 1000, 6000, 1000, 1000]
/-- Integers without rounding. -/
def nxS : SphArith Int := ⟨(· + ·), (· - ·), (· * ·), 1, 2⟩

theorem nxS_mono : SphMono nxS where
  sub a b c d h h' := by show a - d ≤ b - c; omega
  add a b c d h h' := by show a + c ≤ b + d; omega
  htol a b h := by show a * 1 ≤ b * 1; omega
  rkern a b h := by show a * 2 ≤ b * 2; omega

/-- The hypotheses of C54 hold on the example of C52, and both searches run. -/
example : ∃ t rint, rebuildFromPositions bxArith mcode32 bxEnv 100000 (-100000) bxPos 5#32 ⟨0, 0, 0⟩ ⟨8192, 8192, 8192⟩ 0 = .ok t ∧
    SphTree t nxS (-100000) nxH (fun i => nxH.getD i 0) 5 32 (List.replicate (karrasTreeDepth 32) []) (fun _ => 0) rint := by
  obtain ⟨t, _, _, ht, _⟩ := rebuild_ok bx_in 0
  have hl : ∀ i < (5#32).toNat, nxH[i]? = some (nxH.getD i 0) := by decide
  have ha : ∀ i < (5#32).toNat, (-100000 : Int) ≤ nxH.getD i 0 := by decide
  obtain ⟨rint, r1, _⟩ := C54_cell_radii bx_in 0 ht nxS (-100000) nxH (fun i => nxH.getD i 0) hl ha
    (List.replicate (karrasTreeDepth 32) []) (by simp) (fun _ => 0)
  exact ⟨t, rint, ht, nxS_mono, hl, ha, by simp, r1⟩

/-- A run of the two searches on it, for the first four particles: 1 and 2 are neighbours only through the large radius of 2. -/
def nxRun : Option (List (Option (List Nat)) × List (Option (List Nat))) :=
  match rebuildFromPositions bxArith mcode32 bxEnv 100000 (-100000) bxPos 5#32 ⟨0, 0, 0⟩ ⟨8192, 8192, 8192⟩ 0 with
  | .ok t => do
    let rint ← rintField nxS (-100000) nxH t.sortMap t.redMap t.nodes (List.replicate 32 [1, 0]) (fun _ => 0)
    let c ← neighCacheDirect nxS mcode32 t rint bxPos nxH 4 (fun _ => 9) [2, 0, 3, 1]
    let d ← neighCacheTwoStage nxS mcode32 t rint bxPos nxH 4 (fun _ => 9) (fun _ => 9) ((List.range (t.nodes.length + 1)).reverse) [2, 0, 3, 1]
    pure ((List.range 4).map c.forEach, (List.range 4).map d.forEach)
  | _ => none

example : nxRun = some ([some [0, 2], some [2, 1], some [0, 2, 4, 1], some [3]], [some [0, 2], some [2, 1], some [0, 2, 4, 1], some [3]]) := by
  decide +kernel

/-! ### Rounding -/

/-- Round to nearest even to 53 bits, of a natural number. -/
def flNat (n : Nat) : Nat :=
  let s := Nat.log2 n - 52
  let q := n / 2 ^ s
  let r := n % 2 ^ s
  if s = 0 then n else if 2 ^ (s - 1) < r ∨ (r = 2 ^ (s - 1) ∧ q % 2 = 1) then (q + 1) * 2 ^ s else q * 2 ^ s
/-- IEEE-754 double rounding of an integer. -/
def flInt (z : Int) : Int := if 0 ≤ z then flNat z.toNat else - (flNat (-z).toNat : Int)
/-- The arithmetic of doubles that hold integers (sums, differences and products of integers are integers): tolerance 1 and the quintic
kernel, of radius 3. -/
def f64Sph : SphArith Int := ⟨fun a b => flInt (a + b), fun a b => flInt (a - b), fun a b => flInt (a * b), 1, 3⟩
/-- Two particles on the x axis. -/
def rxPos : List (V3 Int) := [⟨0, 0, 0⟩, ⟨-16543835385467974, 0, 0⟩]
/-- Their smoothing lengths. -/
def rxH : List Int := [5514611795155991, 1000]

/-- The two searches in double arithmetic. -/
def rxRun : Option (List (Option (List Nat)) × List (Option (List Nat))) :=
  match rebuildFromPositions bxArith mcode32 ⟨fun _ _ => [], [], fun _ => 0, [0, 1], List.replicate 32 [0], List.replicate 32 [0], fun _ => ⟨0, 0, 0⟩,
    fun _ => ⟨0, 0, 0⟩⟩ (2 ^ 60) (-2 ^ 60) rxPos 2#32 ⟨-2 ^ 55, -2 ^ 55, -2 ^ 55⟩ ⟨2 ^ 55, 2 ^ 55, 2 ^ 55⟩ 0 with
  | .ok t => do
    let rint ← rintField f64Sph (-2 ^ 60) rxH t.sortMap t.redMap t.nodes (List.replicate 32 [0]) (fun _ => 0)
    let c ← neighCacheDirect f64Sph mcode32 t rint rxPos rxH 2 (fun _ => 9) [0, 1]
    let d ← neighCacheTwoStage f64Sph mcode32 t rint rxPos rxH 2 (fun _ => 9) (fun _ => 9) [0, 1] [0, 1]
    pure ((List.range 2).map c.forEach, (List.range 2).map d.forEach)
  | _ => none

/-- C54 does not hold as stated in double arithmetic: here the test of the distance says that the two particles interact (the rounded
squared distance is not above the rounded squared radius), but both searches miss the pair, because the rounded cube of the cell test is one
unit in the last place too small. The particle missed is at the very edge of the kernel. -/
theorem C54_rounding_defect : sphNear f64Sph (fun i => rxPos.getD i ⟨0, 0, 0⟩) (fun i => rxH.getD i 0) 0 1 = true ∧
    rxRun = some ([some [0], some [1]], [some [0], some [1]]) := by
  constructor <;> decide +kernel

end Shamrock
