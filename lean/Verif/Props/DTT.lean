import Verif.Proof.DTTWithin
/-! C53: the dual tree traversal. -/
namespace Shamrock

section
variable {F : Type} [LinearOrder F] {w : Nat}

/-! ### Specification -/

/-- The objects of a cell, as reported by the object iterator (nothing for a cell that does not exist). -/
def objsIn (t : BVH F) (c : Nat) : List Nat := (forEachInCell t.sortMap t.redMap t.nodes c).getD []

/-- The cells a cell is replaced by when a pair is opened: its two children; a leaf is kept when leaf lowering is allowed. -/
def opensTo (low : Bool) (t : BVH F) (c : Nat) : Option (List Nat) :=
  if t.nodes.length ≤ c then (if low then some [c] else none) else childrenOf t c

/-- The pairs of cells compared: the two roots, and what the pairs that are not accepted are opened into. -/
inductive DTTMeets (low : Bool) (mac : Mac F) (t : BVH F) : Nat → Nat → Prop
  | root : DTTMeets low mac t 0 0
  | opened {a b a' b' : Nat} {as bs : List Nat} {ba bb : V3 F × V3 F} : DTTMeets low mac t a b → cellBox t a = some ba → cellBox t b = some bb →
      mac ba bb = false → opensTo low t a = some as → opensTo low t b = some bs → a' ∈ as → b' ∈ bs → DTTMeets low mac t a' b'

/-- `m2l` and `p2p` are a correct answer for `n` objects. -/
structure DTTSpec (low : Bool) (mac : Mac F) (t : BVH F) (n : Nat) (m2l p2p : List (Nat × Nat)) : Prop where
  /-- every ordered pair of objects is in exactly one pair of cells -/
  cover : ((m2l ++ p2p).flatMap fun ab => prodL (objsIn t ab.1) (objsIn t ab.2)).Perm (prodL (List.range n) (List.range n))
  /-- only pairs that are met on the way down are reported -/
  met : ∀ ab ∈ m2l ++ p2p, DTTMeets low mac t ab.1 ab.2
  /-- the accepted pairs satisfy the criterion -/
  accepted : ∀ ab ∈ m2l, ∃ ba bb, cellBox t ab.1 = some ba ∧ cellBox t ab.2 = some bb ∧ mac ba bb = true
  /-- the others do not (except for the single pair of a tree that has only one leaf) … -/
  direct : ∀ ab ∈ p2p, t.nodes ≠ [] → ∃ ba bb, cellBox t ab.1 = some ba ∧ cellBox t ab.2 = some bb ∧ mac ba bb = false
  /-- … and they are pairs of leaves, or, without lowering, pairs of cells of which one has a leaf among its children -/
  bottom : ∀ ab ∈ p2p, t.nodes ≠ [] → if low then t.nodes.length ≤ ab.1 ∧ t.nodes.length ≤ ab.2
    else ∃ as bs, childrenOf t ab.1 = some as ∧ childrenOf t ab.2 = some bs ∧ ∃ c ∈ as ++ bs, t.nodes.length ≤ c

/-! ### Proofs -/

variable {A : GridArith F} {C : MCode w} {env : BVHEnv F} {big small : F} {pmin pmax : List (V3 F)} {P Q : Nat → V3 F} {objCnt : BitVec 32}
  {lo hi : V3 F} {t : BVH F} {T : KTree} {bx : KTree → V3 F × V3 F}

/-- The tree behind a build. -/
theorem dttIn_of_build (H : BVHIn A C env big small pmin pmax P Q objCnt lo hi) (level : Nat)
    (ht : rebuildFromRanges A C env big small pmin pmax objCnt lo hi level = .ok t) :
    ∃ T st bx, DTTIn t T bx ∧ StructOk objCnt.toNat (3 * C.bits) (fun i => (mortonOf A C lo hi (P i)).getD 0#w) t.sortMap t.redMap t.nodes T st ∧
      ∀ S ∈ T.subtrees, IsBox P Q (cellObjs t.sortMap st S) (bx S).1 (bx S).2 := by
  obtain ⟨t', T, st, h1, h2, h3, h4, h5⟩ := rebuild_ok H level
  rw [ht, Res.ok.injEq] at h1
  subst h1
  haveI : Nonempty (V3 F) := ⟨lo⟩
  choose! a b h6 h7 h8 using h5
  refine ⟨T, st, fun S => (a S, b S), ⟨h2.whole, ?_⟩, h2, h8⟩
  intro S hS
  unfold cellBox
  rw [h6 S hS, h7 S hS]; rfl

theorem dttMeets_dual (D : DTTIn t T bx) (low : Bool) (mac : Mac F) : ∀ p : KTree × KTree, MeetOk low T p →
    DTTMeets low mac t (cellIdx t.nodes.length p.1.ref) (cellIdx t.nodes.length p.2.ref) →
    ∀ x ∈ dualC low (macT mac bx) p, MeetOk low T x.2 ∧
      DTTMeets low mac t (cellIdx t.nodes.length x.2.1.ref) (cellIdx t.nodes.length x.2.2.ref) := by
  apply dual_ind low (macT mac bx)
  intro p ih hp hm x hx
  rw [dualC_eq] at hx
  split at hx
  · simp only [List.mem_singleton] at hx; subst hx; exact ⟨hp, hm⟩
  · rename_i hM
    split at hx
    · simp only [List.mem_singleton] at hx; subst hx; exact ⟨hp, hm⟩
    · rename_i hc
      obtain ⟨q, hq, hxq⟩ := List.mem_flatMap.1 hx
      have hc' : closedP low p.1 p.2 = false := by simpa using hc
      have hq' := meet_kids hp hc' hq
      refine ih (by simpa using hM) hc' q hq hq' ?_ x hxq
      have hop : ∀ S ∈ T.subtrees, (low = false → S.isLf = false) →
          opensTo low t (cellIdx t.nodes.length S.ref) = some (S.kids.map fun s => cellIdx t.nodes.length s.ref) := by
        intro S hS hl
        unfold opensTo
        have hlf := isIdLeaf_eq D S hS
        unfold isIdLeaf at hlf
        by_cases h : S.isLf = true
        · rw [h, decide_eq_true_eq] at hlf
          rw [if_pos hlf]
          cases low with
          | true => obtain ⟨k, rfl⟩ := kids_leaf h; rfl
          | false => exact absurd h (by simpa using hl rfl)
        · have h' : S.isLf = false := by simpa using h
          rw [h', decide_eq_false_iff_not] at hlf
          rw [if_neg hlf]
          exact childrenOf_eq D S hS h'
      obtain ⟨q1, q2⟩ := pairsT_mem.1 hq
      exact DTTMeets.opened hm (D.box p.1 hp.1) (D.box p.2 hp.2.1) (by simpa [macT] using hM) (hop p.1 hp.1 (fun h => (hp.2.2 h).1))
        (hop p.2 hp.2.1 (fun h => (hp.2.2 h).2)) (List.mem_map.2 ⟨q.1, q1, rfl⟩) (List.mem_map.2 ⟨q.2, q2, rfl⟩)

theorem outOf_append_perm (off : Nat) (D : List (Bool × KTree × KTree)) :
    ((outOf off D).1 ++ (outOf off D).2).Perm (D.map fun x => cidx off x.2) := by
  unfold outOf
  simp only
  rw [← List.map_append]
  exact (List.filter_append_perm (fun x : Bool × KTree × KTree => x.1) D).map _

theorem outOf_length (off : Nat) (D : List (Bool × KTree × KTree)) : (outOf off D).1.length + (outOf off D).2.length = D.length := by
  have := (outOf_append_perm off D).length_eq
  simpa using this

theorem dttOut_spec (D : DTTIn t T bx) {n sb : Nat} {code : Nat → BitVec w} {st : Nat → Nat}
    (K : StructOk n sb code t.sortMap t.redMap t.nodes T st) (low : Bool) (mac : Mac F) :
    DTTSpec low mac t n (outOf t.nodes.length (dttOut low mac bx T)).1 (outOf t.nodes.length (dttOut low mac bx T)).2 := by
  have h0 := whole_root D.whole
  have hobj : ∀ S ∈ T.subtrees, objsIn t (cellIdx t.nodes.length S.ref) = cellObjs t.sortMap st S := by
    intro S hS
    unfold objsIn
    rw [forEachInCell_ok K S hS]; rfl
  have hsub : ∀ x ∈ dttOut low mac bx T, x.2.1 ∈ T.subtrees ∧ x.2.2 ∈ T.subtrees ∧
      DTTMeets low mac t (cellIdx t.nodes.length x.2.1.ref) (cellIdx t.nodes.length x.2.2.ref) := by
    intro x hx
    unfold dttOut at hx
    split at hx
    · simp only [List.mem_singleton] at hx; subst hx
      refine ⟨self_mem_subtrees _, self_mem_subtrees _, ?_⟩
      simp only [h0]; exact DTTMeets.root
    · rename_i hl
      have := dttMeets_dual D low mac (T, T) (meet_root (by simpa using hl) low) (by simp only [h0]; exact DTTMeets.root) x hx
      exact ⟨this.1.1, this.1.2.1, this.2⟩
  have hroot : (cellObjs t.sortMap st T).Perm (List.range n) := by
    unfold cellObjs
    rw [whole_leaves D.whole]
    exact all_objs K
  have hprod : ∀ A B : List Nat, A.Perm B → (prodL A A).Perm (prodL B B) := by
    intro A B h
    unfold prodL
    exact (List.Perm.flatMap_left (g := fun a => B.map fun b => (a, b)) _ (fun a _ => h.map _)).trans (h.flatMap_right _)
  have hnl : t.nodes ≠ [] → T.isLf = false := by
    intro h
    cases hT : T with
    | leaf k =>
      have := whole_size D.whole
      rw [hT] at this
      simp [KTree.size] at this
      exact absurd this h
    | node _ _ _ => rfl
  refine ⟨?_, ?_, ?_, ?_, ?_⟩
  · refine ((outOf_append_perm t.nodes.length (dttOut low mac bx T)).flatMap_right _).trans ?_
    rw [List.flatMap_map]
    rw [flatMap_congr' (g := fun x => prodL (cellObjs t.sortMap st x.2.1) (cellObjs t.sortMap st x.2.2)) (by
      intro x hx
      simp only [cidx]
      rw [hobj _ (hsub x hx).1, hobj _ (hsub x hx).2.1])]
    refine List.Perm.trans ?_ (hprod _ _ hroot)
    unfold dttOut
    split
    · simp
    · exact dualC_cover low (macT mac bx) (cellObjs t.sortMap st) (fun i l r => by simp [cellObjs, KTree.leaves]) (T, T)
  · intro ab hab
    obtain ⟨x, hx, rfl⟩ := List.mem_map.1 ((outOf_append_perm t.nodes.length (dttOut low mac bx T)).mem_iff.1 hab)
    exact (hsub x hx).2.2
  · intro ab hab
    obtain ⟨x, hx, rfl⟩ := List.mem_map.1 hab
    obtain ⟨hx1, hx2⟩ := List.mem_filter.1 hx
    refine ⟨_, _, D.box _ (hsub x hx1).1, D.box _ (hsub x hx1).2.1, ?_⟩
    unfold dttOut at hx1
    split at hx1
    · simp only [List.mem_singleton] at hx1; subst hx1; simp at hx2
    · have := (dualC_tag low (macT mac bx) _ x hx1).1
      rw [hx2] at this
      exact this.symm
  · intro ab hab hne
    obtain ⟨x, hx, rfl⟩ := List.mem_map.1 hab
    obtain ⟨hx1, hx2⟩ := List.mem_filter.1 hx
    refine ⟨_, _, D.box _ (hsub x hx1).1, D.box _ (hsub x hx1).2.1, ?_⟩
    unfold dttOut at hx1
    rw [if_neg (by rw [hnl hne]; simp)] at hx1
    have := (dualC_tag low (macT mac bx) _ x hx1).1
    rw [show x.1 = false by simpa using hx2] at this
    exact this.symm
  · intro ab hab hne
    obtain ⟨x, hx, rfl⟩ := List.mem_map.1 hab
    obtain ⟨hx1, hx2⟩ := List.mem_filter.1 hx
    obtain ⟨s1, s2, _⟩ := hsub x hx1
    unfold dttOut at hx1
    rw [if_neg (by rw [hnl hne]; simp)] at hx1
    have hc := (dualC_tag low (macT mac bx) _ x hx1).2 (by simpa using hx2)
    have hmeet := (dttMeets_dual D low mac (T, T) (meet_root (hnl hne) low) (by simp only [h0]; exact DTTMeets.root) x hx1).1
    have l1 := isIdLeaf_eq D _ s1
    have l2 := isIdLeaf_eq D _ s2
    unfold isIdLeaf at l1 l2
    cases low with
    | true =>
      simp only [closedP, if_true, Bool.and_eq_true] at hc
      rw [hc.1, decide_eq_true_eq] at l1
      rw [hc.2, decide_eq_true_eq] at l2
      simp only [if_true, cidx]
      exact ⟨l1, l2⟩
    | false =>
      obtain ⟨n1, n2⟩ := hmeet.2.2 rfl
      simp only [Bool.false_eq_true, if_false, cidx]
      refine ⟨_, _, childrenOf_eq D _ s1 n1, childrenOf_eq D _ s2 n2, ?_⟩
      simp only [closedP, Bool.false_eq_true, if_false, Bool.or_eq_true, List.any_eq_true] at hc
      rcases hc with ⟨s, hs, hl⟩ | ⟨s, hs, hl⟩
      · refine ⟨_, List.mem_append_left _ (List.mem_map.2 ⟨s, hs, rfl⟩), ?_⟩
        have := isIdLeaf_eq D s (subtrees_trans _ _ _ s1 (kids_subtrees _ _ hs))
        unfold isIdLeaf at this
        rw [hl, decide_eq_true_eq] at this
        exact this
      · refine ⟨_, List.mem_append_right _ (List.mem_map.2 ⟨s, hs, rfl⟩), ?_⟩
        have := isIdLeaf_eq D s (subtrees_trans _ _ _ s2 (kids_subtrees _ _ hs))
        unfold isIdLeaf at this
        rw [hl, decide_eq_true_eq] at this
        exact this

/-! ### Theorems -/

/-- C52 (all cells). In a tree of points, two cells whose boxes have a point in common are nested: the objects of one are objects of the other. -/
theorem C52_cells_nested (H : BVHIn A C env big small pmin pmin P P objCnt lo hi) (level : Nat)
    (ht : rebuildFromPositions A C env big small pmin objCnt lo hi level = .ok t) (c c' : Nat) (hc : c < 2 * t.nodes.length + 1)
    (hc' : c' < 2 * t.nodes.length + 1) (b b' : V3 F × V3 F) (hb : cellBox t c = some b) (hb' : cellBox t c' = some b') (p : V3 F)
    (hin : BoxIn p p b.1 b.2) (hin' : BoxIn p p b'.1 b'.2) :
    (∀ o ∈ objsIn t c, o ∈ objsIn t c') ∨ (∀ o ∈ objsIn t c', o ∈ objsIn t c) := by
  unfold rebuildFromPositions at ht
  obtain ⟨T, st, bx, D, K, hbx⟩ := dttIn_of_build H level ht
  obtain ⟨S, hS, rfl⟩ := (whole_cells D.whole c).1 hc
  obtain ⟨S', hS', rfl⟩ := (whole_cells D.whole c').1 hc'
  rw [D.box S hS, Option.some.injEq] at hb
  rw [D.box S' hS', Option.some.injEq] at hb'
  subst hb hb'
  unfold objsIn
  rw [forEachInCell_ok K S hS, forEachInCell_ok K S' hS']
  exact cells_nested H K S S' hS hS' _ _ _ _ p (hbx S hS) (hbx S' hS') hin hin'

/-- C53 (reference). For every set of objects, every criterion and both opening rules, the recursive traversal terminates without reading
out of bounds and returns a correct answer: every ordered pair of objects is in exactly one reported pair of cells. -/
theorem C53_reference (H : BVHIn A C env big small pmin pmax P Q objCnt lo hi) (level : Nat)
    (ht : rebuildFromRanges A C env big small pmin pmax objCnt lo hi level = .ok t) (low : Bool) (mac : Mac F) :
    ∃ r, dttReference low mac t = some r ∧ DTTSpec low mac t objCnt.toNat r.1 r.2 := by
  obtain ⟨T, st, bx, D, K, _⟩ := dttIn_of_build H level ht
  exact ⟨_, dttReference_ok D low mac, dttOut_spec D K low mac⟩

/-- C53 (multipass). Whatever the order in which the work items of all its kernels run, and whatever the new buffers contain, the multipass
implementation returns the same interactions as the reference, if there are fewer than `2^30` of them. -/
theorem C53_multipass (H : BVHIn A C env big small pmin pmax P Q objCnt lo hi) (level : Nat)
    (ht : rebuildFromRanges A C env big small pmin pmax objCnt lo hi level = .ok t) (low : Bool) (mac : Mac F) (ref : Inter)
    (href : dttReference low mac t = some ref) (hsz : ref.1.length + ref.2.length < 2 ^ 30) (junk : Nat → Nat × Nat)
    (ord : Nat → Nat → Nat → List Nat) (hord : ∀ k c n, (ord k c n).Perm (List.range n)) :
    ∃ r, dttMultipass low mac t junk ord = some r ∧ r.1.Perm ref.1 ∧ r.2.Perm ref.2 := by
  obtain ⟨T, st, bx, D, K, _⟩ := dttIn_of_build H level ht
  rw [dttReference_ok D low mac, Option.some.injEq] at href
  subst href
  rw [outOf_length] at hsz
  exact dttMultipass_ok D low mac junk ord hord (by omega)

/-- C53 (parallel select). For trees of points, the implementation with one work item per cell never overflows its stack and returns the same
interactions as the reference, grouped by first cell, with the offsets of the groups, whatever the order of execution. -/
theorem C53_select (H : BVHIn A C env big small pmin pmin P P objCnt lo hi) (level : Nat)
    (ht : rebuildFromPositions A C env big small pmin objCnt lo hi level = .ok t) (low : Bool) (mac : Mac F) (ref : Inter)
    (href : dttReference low mac t = some ref) (hsz : ref.1.length + ref.2.length < 2 ^ 32) (hw : w < 2 ^ 31) (junk : Nat → Nat × Nat)
    (order : List Nat) (hord : order.Perm (List.range (2 * t.nodes.length + 1))) :
    ∃ r, dttSelect low mac t (3 * C.bits + 2) junk order = some r ∧ GroupedBy (2 * t.nodes.length + 1) ref.1 r.m2l r.offM2l ∧
      GroupedBy (2 * t.nodes.length + 1) ref.2 r.p2p r.offP2p := by
  unfold rebuildFromPositions at ht
  obtain ⟨T, st, bx, D, K, hbx⟩ := dttIn_of_build H level ht
  rw [dttReference_ok D low mac, Option.some.injEq] at href
  subst href
  rw [outOf_length] at hsz
  have hb := H.code.1
  have hd := K.depth
  exact dttSelect_ok D low mac (3 * C.bits + 2) (by omega) (by omega) (fun i hi => within_ok H K D hbx i hi) junk order hord hsz

/-- The orders of execution of the kernels of one ordering. -/
structure ReorderOrders (env : ReorderEnv) (N m : Nat) : Prop where
  count : env.ordCount.Perm (List.range m)
  scatter : env.ordScatter.Perm (List.range m)
  segs : env.ordSeg.Perm (List.range N)

/-- C53 (ordering). Ordering the result of the reference or of the multipass implementation — any rearrangement `r` of the interactions — gives
the same interactions sorted by first then second cell, with the offsets of the groups; the atomic counters may be bumped in any order. -/
theorem C53_ordered (H : BVHIn A C env big small pmin pmax P Q objCnt lo hi) (level : Nat)
    (ht : rebuildFromRanges A C env big small pmin pmax objCnt lo hi level = .ok t) (low : Bool) (mac : Mac F) (ref r : Inter)
    (href : dttReference low mac t = some ref) (hr1 : r.1.Perm ref.1) (hr2 : r.2.Perm ref.2) (hsz : ref.1.length + ref.2.length < 2 ^ 32)
    (sortRange : Nat → Nat → List (Nat × Nat) → Option (List (Nat × Nat))) (hsr : SortsRanges pair2Lt sortRange) (envM envP : ReorderEnv)
    (hM : ReorderOrders envM (2 * t.nodes.length + 1) ref.1.length) (hP : ReorderOrders envP (2 * t.nodes.length + 1) ref.2.length) :
    ∃ o, addOrdering sortRange envM envP (2 * t.nodes.length + 1) r = some o ∧ GroupedBy (2 * t.nodes.length + 1) ref.1 o.m2l o.offM2l ∧
      GroupedBy (2 * t.nodes.length + 1) ref.2 o.p2p o.offP2p ∧ CompSorted pair2Lt o.m2l ∧ CompSorted pair2Lt o.p2p := by
  obtain ⟨T, st, bx, D, K, _⟩ := dttIn_of_build H level ht
  rw [dttReference_ok D low mac, Option.some.injEq] at href
  have hlt := outOf_lt D low mac
  rw [href] at hlt
  have hg : ∀ {a b out : List (Nat × Nat)} {offs : List W32}, a.Perm b → GroupedBy (2 * t.nodes.length + 1) a out offs →
      GroupedBy (2 * t.nodes.length + 1) b out offs := by
    intro a b out offs h g
    refine ⟨g.perm.trans h, g.len, ?_, g.first, g.last⟩
    intro k hk
    obtain ⟨s, e, x1, x2, x3, x4, x5⟩ := g.slice k hk
    exact ⟨s, e, x1, x2, x3, x4, x5.trans (h.filter _)⟩
  obtain ⟨m, om, e1, g1, c1⟩ := reorderScan_ok sortRange hsr envM (2 * t.nodes.length + 1) r.1 (fun ab h => (hlt.1 ab (hr1.mem_iff.1 h)).1)
    (by rw [hr1.length_eq]; omega) (by rw [hr1.length_eq]; exact hM.count) (by rw [hr1.length_eq]; exact hM.scatter) hM.segs
  obtain ⟨p, op, e2, g2, c2⟩ := reorderScan_ok sortRange hsr envP (2 * t.nodes.length + 1) r.2 (fun ab h => (hlt.2 ab (hr2.mem_iff.1 h)).1)
    (by rw [hr2.length_eq]; omega) (by rw [hr2.length_eq]; exact hP.count) (by rw [hr2.length_eq]; exact hP.scatter) hP.segs
  refine ⟨⟨m, p, om, op⟩, ?_, hg hr1 g1, hg hr2 g2, c1, c2⟩
  unfold addOrdering
  rw [e1, e2]; rfl

theorem grouped_offs {N : Nat} {inter o1 o2 : List (Nat × Nat)} {f1 f2 : List W32} (h1 : GroupedBy N inter o1 f1) (h2 : GroupedBy N inter o2 f2) :
    f1 = f2 := by
  have key : ∀ g, g ≤ N → f1[g]? = f2[g]? := by
    intro g
    induction g with
    | zero => intro _; rw [h1.first, h2.first]
    | succ g ih =>
      intro hg
      have ih := ih (by omega)
      obtain ⟨s1, e1, a1, a2, a3, a4, a5⟩ := h1.slice g (by omega)
      obtain ⟨s2, e2, b1, b2, b3, b4, b5⟩ := h2.slice g (by omega)
      rw [a1, b1, Option.some.injEq] at ih
      subst ih
      have hl := a5.length_eq.trans b5.length_eq.symm
      unfold seg at hl
      rw [List.length_take, List.length_drop, List.length_take, List.length_drop] at hl
      rw [a2, b2]
      congr 1
      apply BitVec.eq_of_toNat_eq
      omega
  apply List.ext_getElem?
  intro g
  by_cases hg : g ≤ N
  · exact key g hg
  · rw [List.getElem?_eq_none (by rw [h1.len]; omega), List.getElem?_eq_none (by rw [h2.len]; omega)]

theorem sorted_unique {l1 l2 : List (Nat × Nat)} (hp : l1.Perm l2) (h1 : CompSorted pair2Lt l1) (h2 : CompSorted pair2Lt l2) : l1 = l2 := by
  unfold CompSorted at h1 h2
  refine List.Perm.eq_of_pairwise ?_ h1 h2 hp
  intro a b _ _ hab hba
  unfold pair2Lt at hab hba
  by_cases h : a.1 = b.1
  · rw [if_pos h.symm] at hab
    rw [if_pos h] at hba
    simp only [decide_eq_false_iff_not] at hab hba
    exact Prod.ext h (by omega)
  · rw [if_neg (fun e => h e.symm)] at hab
    rw [if_neg h] at hba
    simp only [decide_eq_false_iff_not] at hab hba
    omega

/-- C53 (determinism). The ordered result is a function of the tree and of the criterion alone: two orderings of two runs, of the reference or
of the multipass implementation, with any schedules, are equal. -/
theorem C53_ordered_deterministic (H : BVHIn A C env big small pmin pmax P Q objCnt lo hi) (level : Nat)
    (ht : rebuildFromRanges A C env big small pmin pmax objCnt lo hi level = .ok t) (low : Bool) (mac : Mac F) (ref r r' : Inter)
    (href : dttReference low mac t = some ref) (hr1 : r.1.Perm ref.1) (hr2 : r.2.Perm ref.2) (hr1' : r'.1.Perm ref.1) (hr2' : r'.2.Perm ref.2)
    (hsz : ref.1.length + ref.2.length < 2 ^ 32)
    (sortRange sortRange' : Nat → Nat → List (Nat × Nat) → Option (List (Nat × Nat))) (hsr : SortsRanges pair2Lt sortRange)
    (hsr' : SortsRanges pair2Lt sortRange') (envM envP envM' envP' : ReorderEnv)
    (hM : ReorderOrders envM (2 * t.nodes.length + 1) ref.1.length) (hP : ReorderOrders envP (2 * t.nodes.length + 1) ref.2.length)
    (hM' : ReorderOrders envM' (2 * t.nodes.length + 1) ref.1.length) (hP' : ReorderOrders envP' (2 * t.nodes.length + 1) ref.2.length) :
    addOrdering sortRange envM envP (2 * t.nodes.length + 1) r = addOrdering sortRange' envM' envP' (2 * t.nodes.length + 1) r' := by
  obtain ⟨o, a1, a2, a3, a4, a5⟩ := C53_ordered H level ht low mac ref r href hr1 hr2 hsz sortRange hsr envM envP hM hP
  obtain ⟨o', b1, b2, b3, b4, b5⟩ := C53_ordered H level ht low mac ref r' href hr1' hr2' hsz sortRange' hsr' envM' envP' hM' hP'
  rw [a1, b1]
  congr 1
  obtain ⟨m, p, fm, fp⟩ := o
  obtain ⟨m', p', fm', fp'⟩ := o'
  simp only at a2 a3 a4 a5 b2 b3 b4 b5
  rw [sorted_unique (a2.perm.trans b2.perm.symm) a4 b4, sorted_unique (a3.perm.trans b3.perm.symm) a5 b5, grouped_offs a2 b2, grouped_offs a3 b3]

end

/-! ### A tree of extended objects on which the stack of the work items is too small -/

/-- Lower corners: object `k` has a code that starts with `k` ones. -/
def dtPos : List (V3 Int) :=
  [⟨0, 0, 0⟩, ⟨4096, 0, 0⟩, ⟨4096, 4096, 0⟩, ⟨4096, 4096, 4096⟩, ⟨6144, 4096, 4096⟩, ⟨6144, 6144, 4096⟩, ⟨6144, 6144, 6144⟩, ⟨7168, 6144, 6144⟩,
   ⟨7168, 7168, 6144⟩, ⟨7168, 7168, 7168⟩, ⟨7680, 7168, 7168⟩, ⟨7680, 7680, 7168⟩]

/-- All the objects have the same upper corner. -/
def dtTop : List (V3 Int) := List.replicate 12 ⟨8000, 8000, 8000⟩

def dtEnv : BVHEnv Int :=
  ⟨fun _ _ => [1, 0, 0], [7#32], fun _ => 3, List.range 12, List.replicate 32 (List.range 11 ++ List.range 11), List.replicate 32 (List.range 11 ++ List.range 11), fun _ => ⟨0, 0, 0⟩,
    fun _ => ⟨9, 9, 9⟩⟩

theorem dt_in : BVHIn bxArith mcode32 dtEnv 100000 (-100000) dtPos dtTop (fun i => dtPos.getD i ⟨0, 0, 0⟩) (fun i => dtTop.getD i ⟨0, 0, 0⟩)
    12#32 ⟨0, 0, 0⟩ ⟨8192, 8192, 8192⟩ where
  code := mcode32_ok
  boxx := bx_in.boxx
  boxy := bx_in.boxy
  boxz := bx_in.boxz
  pos := by decide
  lim := by decide
  lower := by decide
  upper := by decide
  below := by decide
  above := by decide
  order := by decide
  launchMin := by decide
  launchMax := by decide

/-- C53 (defect). The implementation with one work item per cell assumes that an item lies in at most one child of each cell. With twelve
extended objects whose boxes are nested this fails, four pairs are pushed per level, and a work item writes outside of its 32 entry stack, where
the reference returns a correct answer. -/
theorem C53_select_ranges_overflow_defect : ∃ t, rebuildFromRanges bxArith mcode32 dtEnv 100000 (-100000) dtPos dtTop 12#32 ⟨0, 0, 0⟩
      ⟨8192, 8192, 8192⟩ 0 = .ok t ∧ (∀ junk order, dttSelect true (fun _ _ => false) t (3 * mcode32.bits + 2) junk order = none) ∧
    ∃ r, dttReference true (fun _ _ => false) t = some r ∧ DTTSpec true (fun _ _ => false) t 12 r.1 r.2 := by
  obtain ⟨t, _, _, ht, _⟩ := rebuild_ok dt_in 0
  refine ⟨t, ht, ?_, C53_reference dt_in 0 ht true _⟩
  have key : (match rebuildFromRanges bxArith mcode32 dtEnv 100000 (-100000) dtPos dtTop 12#32 ⟨0, 0, 0⟩ ⟨8192, 8192, 8192⟩ 0 with
      | .ok t => ((List.range (2 * t.nodes.length + 1)).mapM (selItem true (fun _ _ => false) t (3 * mcode32.bits + 2))).isNone
      | _ => false) = true := by decide +kernel
  rw [ht] at key
  intro junk order
  unfold dttSelect
  rw [Option.isNone_iff_eq_none.1 key]; rfl

/-! ### A concrete run -/

/-- Accept boxes separated along `x`. -/
def dxMac : Mac Int := fun a b => decide (a.2.x < b.1.x) || decide (b.2.x < a.1.x)

def dxShow (o : Option DTTOrdered) : Option (List (Nat × Nat) × List (Nat × Nat) × List Nat × List Nat) :=
  o.map fun o => (o.m2l, o.p2p, o.offM2l.map (·.toNat), o.offP2p.map (·.toNat))

/-- The five objects of `bx_in` (four leaves, seven cells) with lowering: the reference. -/
example : (match rebuildFromPositions bxArith mcode32 bxEnv 100000 (-100000) bxPos 5#32 ⟨0, 0, 0⟩ ⟨8192, 8192, 8192⟩ 0 with
    | .ok t => dttReference true dxMac t
    | _ => none) = some ([(4, 3), (3, 4), (2, 1), (1, 2), (6, 5), (5, 6)], [(3, 3), (4, 4), (5, 5), (6, 6)]) := by decide +kernel

/-- The items of the parallel select run in reverse order. -/
example : (match rebuildFromPositions bxArith mcode32 bxEnv 100000 (-100000) bxPos 5#32 ⟨0, 0, 0⟩ ⟨8192, 8192, 8192⟩ 0 with
    | .ok t => dxShow (dttSelect true dxMac t 32 (fun _ => (7, 7)) [6, 5, 4, 3, 2, 1, 0])
    | _ => none) = some ([(1, 2), (2, 1), (3, 4), (4, 3), (5, 6), (6, 5)], [(3, 3), (4, 4), (5, 5), (6, 6)], [0, 0, 1, 2, 3, 4, 5, 6],
      [0, 0, 0, 0, 1, 2, 3, 4]) := by decide +kernel

/-- The multipass implementation and the ordering, with reversed items. -/
example : (match rebuildFromPositions bxArith mcode32 bxEnv 100000 (-100000) bxPos 5#32 ⟨0, 0, 0⟩ ⟨8192, 8192, 8192⟩ 0 with
    | .ok t => dxShow ((dttMultipass true dxMac t (fun _ => (7, 7)) (fun _ _ n => (List.range n).reverse)).bind fun r =>
          addOrdering (ptrInsertSort pair2Lt) ⟨(List.range r.1.length).reverse, List.range r.1.length, List.range 7, fun _ => (7, 7)⟩
            ⟨(List.range r.2.length).reverse, List.range r.2.length, List.range 7, fun _ => (7, 7)⟩ 7 r)
    | _ => none) = some ([(1, 2), (2, 1), (3, 4), (4, 3), (5, 6), (6, 5)], [(3, 3), (4, 4), (5, 5), (6, 6)], [0, 0, 1, 2, 3, 4, 5, 6],
      [0, 0, 0, 0, 1, 2, 3, 4]) := by decide +kernel

end Shamrock
