import Verif.Model.AmrGraph
import Verif.Proof.BVHBox
import Verif.Props.BVH
/-! The tree over the blocks: structure, boxes, search. -/
namespace Shamrock.Amr

/-- What the search needs of the structure: a whole tree whose leaves hold the objects `0 .. n-1`, each once (a leaf may be empty). -/
structure RTreeOk (n : Nat) (sortMap redMap : List Nat) (nodes : List KNode) (T : KTree) (L : Nat → List Nat) : Prop where
  whole : WholeTree nodes T
  depth : T.depth ≤ 63
  cells : nodes.length ≤ n
  perm : ((List.range (nodes.length + 1)).flatMap L).Perm (List.range n)
  leaf : ∀ k ≤ nodes.length, forEachInLeaf sortMap redMap k = some (L k)

/-- The index map ends with an inverted range. -/
theorem buildFromCodes_end {F : Type} [LinearOrder F] {w : Nat} (env : BVHEnv F) (cnt : BitVec 32) (codes : List (BitVec w)) (level : Nat)
    (sm rm : List Nat) (nodes : List KNode) (h : buildFromCodes env cnt codes level = .ok (sm, rm, nodes)) (h0 : nodes.length = 0) :
    rm[2]? = some 0 := by
  unfold buildFromCodes at h
  split at h
  · cases h
  · cases h
  · split at h
    · cases h
    · rename_i redMap leafCnt red hr
      split at h
      · cases h
      · rename_i nd hk
        rw [Res.ok.injEq, Prod.mk.injEq, Prod.mk.injEq] at h
        obtain ⟨_, rfl, rfl⟩ := h
        unfold reduceMortonSet reductionAlg at hr
        simp only [Option.bind_eq_bind, Option.bind_eq_some_iff, Option.pure_def] at hr
        obtain ⟨r, ⟨tab, _, buf, _, e⟩, hr2⟩ := hr
        rw [Option.some.injEq] at e
        subst e
        dsimp only at hr2
        split at hr2
        · cases hr2
        · rename_i hne
          simp only [Option.bind_eq_some_iff, Option.some.injEq, Prod.mk.injEq] at hr2
          obtain ⟨_, _, rfl, hl, _⟩ := hr2
          have hlen : leafCnt ≤ 1 := by
            by_contra hc
            obtain ⟨b, _, hb⟩ := mapM_some_get _ _ _ hk 0 0 (List.getElem?_range (by omega))
            have := (List.getElem?_eq_some_iff.1 hb).1
            omega
          have h1 : buf.length = 1 := by omega
          rw [List.getElem?_append_right (by omega), h1]; rfl

theorem oneCell_whole : WholeTree oneCell (.node 0 (.leaf 0) (.leaf 1)) := by
  refine Or.inl ⟨?_, rfl, rfl, ?_, ?_⟩
  · exact ⟨⟨1, 0, true, 1, true⟩, rfl, rfl, rfl, rfl, trivial, trivial⟩
  · exact List.Perm.refl _
  · decide

theorem radixStruct_ok (env : BVHEnv Int) (box : Box) (pos : List (V3 Int)) (level : Nat) (n : Nat) (hn : pos.length = n) (h1 : 1 ≤ n) (h2 : n ≤ 2 ^ 24 + 1)
    (hcode : ∀ p ∈ pos, ∃ c, blockCode box p = some c ∧ c < 2 ^ 63) (hord : env.order.Perm (List.range n)) :
    ∃ sm rm nodes T L, radixStruct env box pos level = .ok (sm, rm, nodes) ∧ RTreeOk n sm rm nodes T L := by
  unfold radixStruct
  rw [if_neg (by omega)]
  have hcs : pos.mapM (blockCode box) = some (pos.map fun p => (blockCode box p).getD 0) :=
    mapM_opt_map _ _ _ fun p hp => by obtain ⟨c, hc, _⟩ := hcode p hp; rw [hc]; rfl
  rw [hcs]
  dsimp only
  have hcnt : (BitVec.ofNat 32 pos.length).toNat = n := by
    rw [BitVec.toNat_ofNat, hn]; exact Nat.mod_eq_of_lt (by omega)
  generalize hcd : (fun i : Nat => BitVec.ofNat 64 (((pos[i]?).bind (blockCode box)).getD 0)) = code
  have hlist : (pos.map fun p => (blockCode box p).getD 0).map (BitVec.ofNat 64) = (List.range n).map code := by
    apply List.ext_getElem?
    intro i
    rw [List.getElem?_map, List.getElem?_map, List.getElem?_map]
    by_cases hi : i < n
    · rw [List.getElem?_range hi, List.getElem?_eq_getElem (by omega), ← hcd]
      simp only [Option.map_some]
      rw [List.getElem?_eq_getElem (by omega)]; rfl
    · rw [List.getElem?_eq_none (l := pos) (by omega), List.getElem?_eq_none (l := List.range n) (by simpa using hi)]; rfl
  have hb := buildFromCodes_ok (w := 64) env (BitVec.ofNat 32 pos.length) level 63 code (by omega) (by omega) (by omega)
    (by
      intro i hi
      rw [hcnt] at hi
      rw [← hcd]
      dsimp only
      rw [List.getElem?_eq_getElem (by omega), Option.bind_some]
      obtain ⟨c, hc, hlt⟩ := hcode _ (List.getElem_mem (by omega : i < pos.length))
      rw [hc, Option.getD_some, BitVec.toNat_ofNat]
      exact lt_of_le_of_lt (Nat.mod_le _ _) hlt) (by rw [hcnt]; exact hord)
  rw [hcnt] at hb
  rw [hlist, hn]
  rw [hn] at hb
  obtain ⟨sm, rm, nodes, T, st, b1, b2⟩ := hb
  rw [b1]
  dsimp only [Res.bind]
  by_cases h0 : nodes.length = 0
  · rw [if_pos h0]
    have hend := buildFromCodes_end env _ _ level sm rm nodes b1 h0
    refine ⟨sm, rm, oneCell, .node 0 (.leaf 0) (.leaf 1), fun k => if k = 0 then leafObjs sm st 0 else [], rfl, oneCell_whole, by decide, h1, ?_, ?_⟩
    · have := all_objs b2
      rw [h0] at this
      show (List.flatMap _ [0, 1]).Perm _
      simpa [List.range_succ] using this
    · intro k hk
      have hk' : k = 0 ∨ k = 1 := by
        have : k ≤ 1 := hk
        omega
      rcases hk' with rfl | rfl
      · rw [if_pos rfl]; exact forEachInLeaf_ok b2 0 (by omega)
      · have := b2.starts 1 (by omega)
        unfold forEachInLeaf
        rw [this, hend]
        unfold forSorted
        simp
  · rw [if_neg h0]
    exact ⟨sm, rm, nodes, T, leafObjs sm st, rfl, b2.whole, b2.depth, by have := b2.cells; omega, all_objs b2, fun k hk => forEachInLeaf_ok b2 k hk⟩

section
variable {n : Nat} {sortMap redMap : List Nat} {nodes : List KNode} {T : KTree} {L : Nat → List Nat}

theorem rt_leaf_le (H : RTreeOk n sortMap redMap nodes T L) (S : KTree) (hS : S ∈ T.subtrees) (k : Nat) (hk : k ∈ S.leaves) : k ≤ nodes.length := by
  have := (leaves_subtrees T _).1 (subtrees_trans T _ _ hS ((leaves_subtrees S k).2 hk))
  rw [whole_leaves H.whole, List.mem_range] at this
  omega

theorem rt_obj_lt (H : RTreeOk n sortMap redMap nodes T L) (k : Nat) (hk : k ≤ nodes.length) (i : Nat) (hi : i ∈ L k) : i < n := by
  rw [← List.mem_range, ← H.perm.mem_iff, List.mem_flatMap]
  exact ⟨k, by rw [List.mem_range]; omega, hi⟩

/-- One box buffer. -/
theorem rt_aabb (H : RTreeOk n sortMap redMap nodes T L) (comb : V3 Int → V3 Int → V3 Int) (init : V3 Int) (pos : List (V3 Int)) (scheds : List (List Nat))
    (hd : 63 ≤ scheds.length) (old : Nat → V3 Int) (R : List Nat → V3 Int → Prop)
    (hleaf : ∀ ids, (∀ i ∈ ids, i < n) → ∃ a, leafAcc comb init pos ids = some a ∧ R ids a)
    (hcomb : ∀ a b u v, R a u → R b v → R (a ++ b) (comb u v)) :
    ∃ buf, aabbBuf comb init pos sortMap redMap nodes scheds old = some buf ∧
      ∀ S ∈ T.subtrees, ∃ a, buf[cellIdx nodes.length S.ref]? = some a ∧ R (S.leaves.flatMap L) a := by
  have hl : ∀ k, ∃ a, k ≤ nodes.length → leafAcc comb init pos (L k) = some a ∧ R (L k) a := by
    intro k
    by_cases hk : k ≤ nodes.length
    · obtain ⟨a, h⟩ := hleaf _ (rt_obj_lt H k hk); exact ⟨a, fun _ => h⟩
    · exact ⟨init, fun h => absurd h hk⟩
  choose leafv hleafv using hl
  unfold aabbBuf
  rw [mapM_range_some (nodes.length + 1) _ leafv (by
    intro k hk
    rw [H.leaf k (by omega)]
    exact (hleafv k (by omega)).1)]
  obtain ⟨m', h1, h2, h3⟩ := whole_propagate H.whole comb scheds (by have := H.depth; omega)
    ((List.range nodes.length).map old ++ (List.range (nodes.length + 1)).map leafv) leafv (by simp; omega) (by
      intro k hk
      rw [List.getElem?_append_right (by simp), List.length_map, List.length_range, Nat.add_sub_cancel_left, List.getElem?_map,
        List.getElem?_range (by omega)]; rfl)
  refine ⟨m', h1, ?_⟩
  intro S hS
  exact ⟨_, h3 S hS, value_prop comb leafv _ R hcomb S (fun k hk => (hleafv k (rt_leaf_le H S hS k hk)).2)⟩

theorem rt_for (t : BVH Int) (H : RTreeOk n t.sortMap t.redMap t.nodes T L) (hn : n < 2 ^ 31) (accept : Nat → V3 Int → V3 Int → Bool) :
    rtreeFor mcode64 t accept = some ((foundLeaves t.nodes.length (T.visit t.nodes.length (boxCond t accept))).flatMap L) := by
  unfold rtreeFor
  rw [whole_traversal H.whole _ (by have := H.depth; show T.depth + 1 ≤ 3 * 21 + 1; omega)]
  simp only [Option.bind_eq_bind, Option.bind_some]
  have hc := H.cells
  have key : ∀ ev : List TEvent, (∀ id, TEvent.found id ∈ ev → ∃ k ≤ t.nodes.length, id = t.nodes.length + k) →
      (ev.mapM (m := Option) fun
        | .found id => forEachInLeaf t.sortMap t.redMap (u32sub id t.nodes.length)
        | .excluded _ => some []).bind (fun r => some r.flatten) = some ((foundLeaves t.nodes.length ev).flatMap L) := by
    intro ev
    induction ev with
    | nil => intro _; rfl
    | cons e ev ih =>
      intro h
      have ih' := ih (fun id hid => h id (List.mem_cons_of_mem _ hid))
      rw [List.mapM_cons]
      cases e with
      | found id =>
        obtain ⟨k, hk, rfl⟩ := h id (by simp)
        have hu : u32sub (t.nodes.length + k) t.nodes.length = k := by unfold u32sub; omega
        simp only [hu]
        rw [H.leaf k hk]
        revert ih'
        generalize List.mapM (m := Option) _ ev = X
        intro ih'
        cases X with
        | none => simp at ih'
        | some y =>
          simp only [Option.bind_some, Option.some.injEq] at ih'
          simp only [Option.bind_eq_bind, Option.bind_some, Option.pure_def, List.flatten_cons, ih', foundLeaves, List.filterMap_cons,
            Nat.add_sub_cancel_left, List.flatMap_cons]
      | excluded id =>
        revert ih'
        generalize List.mapM (m := Option) _ ev = X
        intro ih'
        cases X with
        | none => simp at ih'
        | some y =>
          simp only [Option.bind_some, Option.some.injEq] at ih'
          simp only [Option.bind_eq_bind, Option.bind_some, Option.pure_def, List.flatten_cons, ih', foundLeaves, List.filterMap_cons,
            List.nil_append]
  refine key _ ?_
  intro id hid
  obtain ⟨k, hk, he⟩ := visit_ids _ _ T id hid
  exact ⟨k, rt_leaf_le H T (self_mem_subtrees T) k hk, he⟩

/-- The search visits every object once at most, and every object whose enclosing cells are all accepted. -/
theorem rt_search (t : BVH Int) (H : RTreeOk n t.sortMap t.redMap t.nodes T L) (hn : n < 2 ^ 31) (accept : Nat → V3 Int → V3 Int → Bool) (P Q : Nat → V3 Int)
    (hbox : ∀ S ∈ T.subtrees, ∃ a b, t.bmin[cellIdx t.nodes.length S.ref]? = some a ∧ t.bmax[cellIdx t.nodes.length S.ref]? = some b ∧
      ∀ i ∈ S.leaves.flatMap L, BoxIn (P i) (Q i) a b) :
    ∃ found, rtreeFor mcode64 t accept = some found ∧ found.Nodup ∧ (∀ i ∈ found, i < n) ∧
      ∀ i < n, (∀ id a b, BoxIn (P i) (Q i) a b → accept id a b = true) → i ∈ found := by
  refine ⟨_, rt_for t H hn accept, ?_, ?_, ?_⟩
  · have hs := sublist_flatMap L (foundLeaves_sublist t.nodes.length (boxCond t accept) T)
    rw [whole_leaves H.whole] at hs
    exact hs.nodup (H.perm.nodup_iff.2 List.nodup_range)
  · intro i hi
    have hs := sublist_flatMap L (foundLeaves_sublist t.nodes.length (boxCond t accept) T)
    rw [whole_leaves H.whole] at hs
    exact List.mem_range.1 (H.perm.mem_iff.1 (hs.mem hi))
  · intro i hi hacc
    obtain ⟨k, hk, hik⟩ := List.mem_flatMap.1 (H.perm.mem_iff.2 (List.mem_range.2 hi))
    have hkT : k ∈ T.leaves := by rw [whole_leaves H.whole]; exact hk
    rw [List.mem_flatMap]
    refine ⟨k, ?_, hik⟩
    rw [mem_foundLeaves _ _ _ T (by rw [whole_leaves H.whole]; exact List.nodup_range) hkT]
    intro S hS hkS
    obtain ⟨a, b, ha, hb, hin⟩ := hbox S hS
    unfold boxCond
    rw [ha, hb]
    exact hacc _ _ _ (hin i (List.mem_flatMap.2 ⟨k, hkS, hik⟩))

end

theorem foldl_le_min : ∀ (l : List Int) (a : Int), l.foldl min a ≤ a ∧ ∀ x ∈ l, l.foldl min a ≤ x := by
  intro l
  induction l with
  | nil => intro a; exact ⟨le_refl _, fun x h => absurd h List.not_mem_nil⟩
  | cons b l ih =>
    intro a
    obtain ⟨h1, h2⟩ := ih (min a b)
    refine ⟨le_trans h1 (min_le_left _ _), fun x hx => ?_⟩
    rcases List.mem_cons.1 hx with rfl | hx
    · exact le_trans h1 (min_le_right _ _)
    · exact h2 x hx

theorem foldl_ge_max : ∀ (l : List Int) (a : Int), a ≤ l.foldl max a ∧ ∀ x ∈ l, x ≤ l.foldl max a := by
  intro l
  induction l with
  | nil => intro a; exact ⟨le_refl _, fun x h => absurd h List.not_mem_nil⟩
  | cons b l ih =>
    intro a
    obtain ⟨h1, h2⟩ := ih (max a b)
    refine ⟨le_trans (le_max_left _ _) h1, fun x hx => ?_⟩
    rcases List.mem_cons.1 hx with rfl | hx
    · exact le_trans (le_max_right _ _) h1
    · exact h2 x hx

/-- A tree with the boxes. -/
theorem boxes_ok (bs : List Box) (sm rm : List Nat) (nodes : List KNode) (T : KTree) (L : Nat → List Nat) (H : RTreeOk bs.length sm rm nodes T L)
    (env : BVHEnv Int) (hmin : 63 ≤ env.schedMin.length) (hmax : 63 ≤ env.schedMax.length) (I J : V3 Int) :
    ∃ bmin bmax, aabbBuf vmin3 I (bs.map (·.lo)) sm rm nodes env.schedMin env.oldMin = some bmin ∧
      aabbBuf vmax3 J (bs.map (·.hi)) sm rm nodes env.schedMax env.oldMax = some bmax ∧
      ∀ S ∈ T.subtrees, ∃ a b, bmin[cellIdx nodes.length S.ref]? = some a ∧ bmax[cellIdx nodes.length S.ref]? = some b ∧
        ∀ i ∈ S.leaves.flatMap L, BoxIn ((bs.map Box.lo).getD i (⟨0, 0, 0⟩ : V3 Int)) ((bs.map Box.hi).getD i (⟨0, 0, 0⟩ : V3 Int)) a b := by
  obtain ⟨bmin, h1, h2⟩ := rt_aabb H vmin3 I (bs.map (·.lo)) env.schedMin hmin env.oldMin
    (fun (ids : List Nat) (a : V3 Int) => ∀ i ∈ ids, a.x ≤ ((bs.map Box.lo).getD i (⟨0, 0, 0⟩ : V3 Int)).x ∧ a.y ≤ ((bs.map Box.lo).getD i (⟨0, 0, 0⟩ : V3 Int)).y ∧ a.z ≤ ((bs.map Box.lo).getD i (⟨0, 0, 0⟩ : V3 Int)).z)
    (by
      intro ids hlt
      unfold leafAcc
      rw [mapM_opt_map _ (fun i => (bs.map Box.lo).getD i (⟨0, 0, 0⟩ : V3 Int)) ids (fun i hi => by
        have hi' : i < (bs.map Box.lo).length := by rw [List.length_map]; exact hlt i hi
        rw [List.getD_eq_getElem?_getD, List.getElem?_eq_getElem hi']; rfl)]
      refine ⟨_, rfl, fun i hi => ?_⟩
      rw [foldl_vmin3]
      dsimp only
      exact ⟨(foldl_le_min _ _).2 _ (List.mem_map.2 ⟨_, List.mem_map.2 ⟨i, hi, rfl⟩, rfl⟩), (foldl_le_min _ _).2 _ (List.mem_map.2 ⟨_, List.mem_map.2 ⟨i, hi, rfl⟩, rfl⟩),
        (foldl_le_min _ _).2 _ (List.mem_map.2 ⟨_, List.mem_map.2 ⟨i, hi, rfl⟩, rfl⟩)⟩)
    (by
      intro a b u v hu hv i hi
      unfold vmin3
      dsimp only
      rcases List.mem_append.1 hi with h | h
      · obtain ⟨p, q, r⟩ := hu i h
        exact ⟨le_trans (min_le_left _ _) p, le_trans (min_le_left _ _) q, le_trans (min_le_left _ _) r⟩
      · obtain ⟨p, q, r⟩ := hv i h
        exact ⟨le_trans (min_le_right _ _) p, le_trans (min_le_right _ _) q, le_trans (min_le_right _ _) r⟩)
  obtain ⟨bmax, h3, h4⟩ := rt_aabb H vmax3 J (bs.map (·.hi)) env.schedMax hmax env.oldMax
    (fun (ids : List Nat) (a : V3 Int) => ∀ i ∈ ids, ((bs.map Box.hi).getD i (⟨0, 0, 0⟩ : V3 Int)).x ≤ a.x ∧ ((bs.map Box.hi).getD i (⟨0, 0, 0⟩ : V3 Int)).y ≤ a.y ∧ ((bs.map Box.hi).getD i (⟨0, 0, 0⟩ : V3 Int)).z ≤ a.z)
    (by
      intro ids hlt
      unfold leafAcc
      rw [mapM_opt_map _ (fun i => (bs.map Box.hi).getD i (⟨0, 0, 0⟩ : V3 Int)) ids (fun i hi => by
        have hi' : i < (bs.map Box.hi).length := by rw [List.length_map]; exact hlt i hi
        rw [List.getD_eq_getElem?_getD, List.getElem?_eq_getElem hi']; rfl)]
      refine ⟨_, rfl, fun i hi => ?_⟩
      rw [foldl_vmax3]
      dsimp only
      exact ⟨(foldl_ge_max _ _).2 _ (List.mem_map.2 ⟨_, List.mem_map.2 ⟨i, hi, rfl⟩, rfl⟩), (foldl_ge_max _ _).2 _ (List.mem_map.2 ⟨_, List.mem_map.2 ⟨i, hi, rfl⟩, rfl⟩),
        (foldl_ge_max _ _).2 _ (List.mem_map.2 ⟨_, List.mem_map.2 ⟨i, hi, rfl⟩, rfl⟩)⟩)
    (by
      intro a b u v hu hv i hi
      unfold vmax3
      dsimp only
      rcases List.mem_append.1 hi with h | h
      · obtain ⟨p, q, r⟩ := hu i h
        exact ⟨le_trans p (le_max_left _ _), le_trans q (le_max_left _ _), le_trans r (le_max_left _ _)⟩
      · obtain ⟨p, q, r⟩ := hv i h
        exact ⟨le_trans p (le_max_right _ _), le_trans q (le_max_right _ _), le_trans r (le_max_right _ _)⟩)
  refine ⟨bmin, bmax, h1, h3, fun S hS => ?_⟩
  obtain ⟨a, ha, ha'⟩ := h2 S hS
  obtain ⟨b, hb, hb'⟩ := h4 S hS
  exact ⟨a, b, ha, hb, fun i hi => ⟨ha' i hi, hb' i hi⟩⟩

/-- The low and high corners of the smallest box around the blocks. -/
def IsHull (bs : List Box) (lo hi : V3 Int) : Prop :=
  ((∀ b ∈ bs, lo.x ≤ b.lo.x ∧ b.hi.x ≤ hi.x) ∧ (∃ b ∈ bs, b.lo.x = lo.x) ∧ ∃ b ∈ bs, b.hi.x = hi.x) ∧
  ((∀ b ∈ bs, lo.y ≤ b.lo.y ∧ b.hi.y ≤ hi.y) ∧ (∃ b ∈ bs, b.lo.y = lo.y) ∧ ∃ b ∈ bs, b.hi.y = hi.y) ∧
  ((∀ b ∈ bs, lo.z ≤ b.lo.z ∧ b.hi.z ≤ hi.z) ∧ (∃ b ∈ bs, b.lo.z = lo.z) ∧ ∃ b ∈ bs, b.hi.z = hi.z)

theorem foldl_min_attain (f : Box → Int) : ∀ (r : List Box) (b : Box) , (∀ c ∈ b :: r, (r.map f).foldl min (f b) ≤ f c) ∧ ∃ c ∈ b :: r, f c = (r.map f).foldl min (f b) := by
  intro r
  induction r with
  | nil => intro b; simp
  | cons d r ih =>
    intro b
    rw [List.map_cons, List.foldl_cons]
    rcases le_total (f b) (f d) with h | h
    · rw [min_eq_left h]
      obtain ⟨h1, c, hc, he⟩ := ih b
      refine ⟨fun c hc => ?_, c, ?_, he⟩
      · rcases List.mem_cons.1 hc with rfl | hc
        · exact h1 _ (by simp)
        · rcases List.mem_cons.1 hc with rfl | hc
          · exact le_trans (h1 b (by simp)) h
          · exact h1 _ (by simp [hc])
      · rcases List.mem_cons.1 hc with rfl | hc
        · simp
        · simp [hc]
    · rw [min_eq_right h]
      obtain ⟨h1, c, hc, he⟩ := ih d
      refine ⟨fun c hc => ?_, c, List.mem_cons_of_mem _ hc, he⟩
      rcases List.mem_cons.1 hc with rfl | hc
      · exact le_trans (h1 d (by simp)) h
      · exact h1 _ hc

theorem foldl_max_attain (f : Box → Int) : ∀ (r : List Box) (b : Box) , (∀ c ∈ b :: r, f c ≤ (r.map f).foldl max (f b)) ∧ ∃ c ∈ b :: r, f c = (r.map f).foldl max (f b) := by
  intro r
  induction r with
  | nil => intro b; simp
  | cons d r ih =>
    intro b
    rw [List.map_cons, List.foldl_cons]
    rcases le_total (f d) (f b) with h | h
    · rw [max_eq_left h]
      obtain ⟨h1, c, hc, he⟩ := ih b
      refine ⟨fun c hc => ?_, c, ?_, he⟩
      · rcases List.mem_cons.1 hc with rfl | hc
        · exact h1 _ (by simp)
        · rcases List.mem_cons.1 hc with rfl | hc
          · exact le_trans h (h1 b (by simp))
          · exact h1 _ (by simp [hc])
      · rcases List.mem_cons.1 hc with rfl | hc
        · simp
        · simp [hc]
    · rw [max_eq_right h]
      obtain ⟨h1, c, hc, he⟩ := ih d
      refine ⟨fun c hc => ?_, c, List.mem_cons_of_mem _ hc, he⟩
      rcases List.mem_cons.1 hc with rfl | hc
      · exact le_trans h (h1 d (by simp))
      · exact h1 _ hc

theorem foldl_vmin_lo (r : List Box) (m : V3 Int) : r.foldl (fun m c => vmin3 m c.lo) m =
    ⟨(r.map (·.lo.x)).foldl min m.x, (r.map (·.lo.y)).foldl min m.y, (r.map (·.lo.z)).foldl min m.z⟩ := by
  induction r generalizing m with
  | nil => rfl
  | cons c r ih => rw [List.foldl_cons, ih]; rfl

theorem foldl_vmax_hi (r : List Box) (m : V3 Int) : r.foldl (fun m c => vmax3 m c.hi) m =
    ⟨(r.map (·.hi.x)).foldl max m.x, (r.map (·.hi.y)).foldl max m.y, (r.map (·.hi.z)).foldl max m.z⟩ := by
  induction r generalizing m with
  | nil => rfl
  | cons c r ih => rw [List.foldl_cons, ih]; rfl

theorem treeBox_ok (bs : List Box) (h : bs ≠ []) : ∃ lo hi, IsHull bs lo hi ∧
    treeBox bs = some ⟨lo, ⟨lo.x + i64RoundupPow2 (hi.x - lo.x), lo.y + i64RoundupPow2 (hi.y - lo.y), lo.z + i64RoundupPow2 (hi.z - lo.z)⟩⟩ := by
  cases bs with
  | nil => exact absurd rfl h
  | cons b r =>
    refine ⟨_, _, ?_, rfl⟩
    rw [foldl_vmin_lo, foldl_vmax_hi]
    have k1 := foldl_min_attain (·.lo.x) r b
    have k2 := foldl_min_attain (·.lo.y) r b
    have k3 := foldl_min_attain (·.lo.z) r b
    have k4 := foldl_max_attain (·.hi.x) r b
    have k5 := foldl_max_attain (·.hi.y) r b
    have k6 := foldl_max_attain (·.hi.z) r b
    exact ⟨⟨fun c hc => ⟨k1.1 c hc, k4.1 c hc⟩, k1.2, k4.2⟩, ⟨fun c hc => ⟨k2.1 c hc, k5.1 c hc⟩, k2.2, k5.2⟩, ⟨fun c hc => ⟨k3.1 c hc, k6.1 c hc⟩, k3.2, k6.2⟩⟩

theorem hull_unique {bs : List Box} {lo hi lo' hi' : V3 Int} (h : IsHull bs lo hi) (h' : IsHull bs lo' hi') : lo = lo' ∧ hi = hi' := by
  obtain ⟨⟨a1, ⟨b1, b1m, b1e⟩, ⟨c1, c1m, c1e⟩⟩, ⟨a2, ⟨b2, b2m, b2e⟩, ⟨c2, c2m, c2e⟩⟩, ⟨a3, ⟨b3, b3m, b3e⟩, ⟨c3, c3m, c3e⟩⟩⟩ := h
  obtain ⟨⟨a1', ⟨b1', b1m', b1e'⟩, ⟨c1', c1m', c1e'⟩⟩, ⟨a2', ⟨b2', b2m', b2e'⟩, ⟨c2', c2m', c2e'⟩⟩, ⟨a3', ⟨b3', b3m', b3e'⟩, ⟨c3', c3m', c3e'⟩⟩⟩ := h'
  have e1 := (a1 _ b1m').1; have e2 := (a1' _ b1m).1; have e3 := (a1 _ c1m').2; have e4 := (a1' _ c1m).2
  have e5 := (a2 _ b2m').1; have e6 := (a2' _ b2m).1; have e7 := (a2 _ c2m').2; have e8 := (a2' _ c2m).2
  have e9 := (a3 _ b3m').1; have e10 := (a3' _ b3m).1; have e11 := (a3 _ c3m').2; have e12 := (a3' _ c3m).2
  cases lo; cases hi; cases lo'; cases hi'
  simp only [V3.mk.injEq] at *
  omega

theorem i64_pow (v : Int) (h1 : 1 ≤ v) (h2 : v ≤ 2 ^ 62) : ∃ k : Nat, k ≤ 62 ∧ i64RoundupPow2 v = 2 ^ k ∧ v ≤ 2 ^ k ∧ (v ≤ 2 ^ 20 → k ≤ 20) := by
  obtain ⟨m, rfl⟩ : ∃ m : Nat, v = m := ⟨v.toNat, by omega⟩
  have hm2 : m ≤ 2 ^ 62 := by exact_mod_cast h2
  have ht : (BitVec.ofInt 64 (m : Int)).toNat = m := by
    rw [BitVec.ofInt_natCast, BitVec.toNat_ofNat]; exact Nat.mod_eq_of_lt (by omega)
  obtain ⟨⟨k, hk⟩, hle, hmin⟩ := C29_roundup_pow2_u64 (BitVec.ofInt 64 (m : Int)) (by rw [ht]; omega) (by rw [ht]; omega)
  rw [ht] at hle hmin
  have hk62 : k ≤ 62 := by
    have := hmin 62 hm2
    rw [hk] at this
    exact (Nat.pow_le_pow_iff_right (by omega)).1 this
  refine ⟨k, hk62, ?_, ?_, ?_⟩
  · unfold i64RoundupPow2
    rw [BitVec.toInt_eq_toNat_of_lt, hk]
    · push_cast; rfl
    · rw [hk]
      have := Nat.pow_le_pow_right (n := 2) (by omega) hk62
      omega
  · rw [hk] at hle; exact_mod_cast hle
  · intro h
    have h' : m ≤ 2 ^ 20 := by exact_mod_cast h
    have := hmin 20 h'
    rw [hk] at this
    exact (Nat.pow_le_pow_iff_right (by omega)).1 this

theorem axisGrid_some (lo p : Int) (k : Nat) : ∃ u, axisGrid lo (lo + 2 ^ k) p = some u ∧ u < 2 ^ 21 := by
  have hd : lo + 2 ^ k - lo = (2 : Int) ^ k := by omega
  have hpos : (0 : Int) < 2 ^ k := by positivity
  unfold axisGrid
  rw [hd]
  dsimp only
  rw [if_neg (by omega)]
  by_cases h : 21 ≤ k
  · have : (2097152 : Int) ∣ 2 ^ k := by
      have := pow_dvd_pow (2 : Int) h
      norm_num at this; exact this
    rw [if_pos (Int.le_of_dvd hpos this), if_pos (Int.emod_eq_zero_of_dvd this)]
    refine ⟨_, rfl, ?_⟩
    exact lt_of_le_of_lt (Nat.min_le_right _ _) (by omega)
  · have hlt : (2 : Int) ^ k < 2 ^ 21 := pow_lt_pow_right₀ (by norm_num) (by omega)
    have hdv : (2 : Int) ^ k ∣ 2097152 := by
      have := pow_dvd_pow (2 : Int) (show k ≤ 21 by omega)
      norm_num at this; exact this
    rw [if_neg (by norm_num at hlt; omega), if_pos (Int.emod_eq_zero_of_dvd hdv)]
    refine ⟨_, rfl, ?_⟩
    exact lt_of_le_of_lt (Nat.min_le_right _ _) (by omega)

/-- The three extents are on the same side of `2^20` (the code compares the rounded extents with `2^21`). -/
def SameScale (lo hi : V3 Int) : Prop :=
  (hi.x - lo.x ≤ 2 ^ 20 ∧ hi.y - lo.y ≤ 2 ^ 20 ∧ hi.z - lo.z ≤ 2 ^ 20) ∨ (2 ^ 20 < hi.x - lo.x ∧ 2 ^ 20 < hi.y - lo.y ∧ 2 ^ 20 < hi.z - lo.z)

theorem blockCode_some (lo p : V3 Int) (i j k : Nat) (h : (i ≤ 20 ∧ j ≤ 20 ∧ k ≤ 20) ∨ (21 ≤ i ∧ 21 ≤ j ∧ 21 ≤ k)) :
    ∃ c, blockCode ⟨lo, ⟨lo.x + 2 ^ i, lo.y + 2 ^ j, lo.z + 2 ^ k⟩⟩ p = some c ∧ c < 2 ^ 63 := by
  have hc : ∀ (l : Int) (m : Nat), decide (2097152 ≤ l + 2 ^ m - l) = decide (21 ≤ m) := by
    intro l m
    rw [decide_eq_decide, show l + 2 ^ m - l = (2 : Int) ^ m by omega]
    constructor
    · intro q
      by_contra hm
      have : (2 : Int) ^ m < 2 ^ 21 := pow_lt_pow_right₀ (by norm_num) (by omega)
      norm_num at this; omega
    · intro q
      have : (2 : Int) ^ 21 ≤ 2 ^ m := pow_le_pow_right₀ (by norm_num) q
      norm_num at this; omega
  unfold blockCode
  dsimp only
  have cx := hc lo.x i
  have cy := hc lo.y j
  have cz := hc lo.z k
  obtain ⟨x, hx, hx'⟩ := axisGrid_some lo.x p.x i
  obtain ⟨y, hy, hy'⟩ := axisGrid_some lo.y p.y j
  obtain ⟨z, hz, hz'⟩ := axisGrid_some lo.z p.z k
  rw [if_pos (by rw [cx, cy, cz, decide_eq_decide, decide_eq_decide]; omega), hx, hy, hz]
  refine ⟨_, rfl, ?_⟩
  exact isMorton_lt (b := 21) (mcode64_ok.2 x y z ⟨hx', hy', hz'⟩)

/-- The inputs of the build: 1 to `2^24 + 1` blocks of non-zero volume, a domain of less than `2^62` in each direction and not elongated. -/
structure TreeIn (env : BVHEnv Int) (bs : List Box) (lo hi : V3 Int) : Prop where
  pos : bs ≠ []
  lim : bs.length ≤ 2 ^ 24 + 1
  vol : ∀ b ∈ bs, b.lo.x < b.hi.x ∧ b.lo.y < b.hi.y ∧ b.lo.z < b.hi.z
  hull : IsHull bs lo hi
  ext : hi.x - lo.x ≤ 2 ^ 62 ∧ hi.y - lo.y ≤ 2 ^ 62 ∧ hi.z - lo.z ≤ 2 ^ 62
  scale : SameScale lo hi
  order : env.order.Perm (List.range bs.length)
  launchMin : env.schedMin.length = 64
  launchMax : env.schedMax.length = 64

/-- The search in the tree over the blocks. -/
theorem tree_ok (env : BVHEnv Int) (bs : List Box) (lo hi : V3 Int) (H : TreeIn env bs lo hi) (level : Nat) :
    ∃ t, buildTree env bs level = .ok t ∧ ∀ accept, ∃ found, rtreeFor mcode64 t accept = some found ∧ found.Nodup ∧ (∀ i ∈ found, i < bs.length) ∧
      ∀ (i : Nat) B, bs[i]? = some B → (∀ id a b, BoxIn B.lo B.hi a b → accept id a b = true) → i ∈ found := by
  obtain ⟨lo', hi', h1, h2⟩ := treeBox_ok bs H.pos
  obtain ⟨rfl, rfl⟩ := hull_unique H.hull h1
  have hext : ∀ (f : V3 Int → Int), (∃ b ∈ bs, f b.lo = f lo) → (∀ b ∈ bs, f lo ≤ f b.lo ∧ f b.hi ≤ f hi) → (∀ b ∈ bs, f b.lo < f b.hi) → 1 ≤ f hi - f lo := by
    intro f ⟨b, hb, he⟩ ha hv
    have := ha b hb; have := hv b hb; omega
  have ex := hext (·.x) H.hull.1.2.1 H.hull.1.1 (fun b hb => (H.vol b hb).1)
  have ey := hext (·.y) H.hull.2.1.2.1 H.hull.2.1.1 (fun b hb => (H.vol b hb).2.1)
  have ez := hext (·.z) H.hull.2.2.2.1 H.hull.2.2.1 (fun b hb => (H.vol b hb).2.2)
  obtain ⟨i, i1, i2, i3, i4⟩ := i64_pow (hi.x - lo.x) ex H.ext.1
  obtain ⟨j, j1, j2, j3, j4⟩ := i64_pow (hi.y - lo.y) ey H.ext.2.1
  obtain ⟨k, k1, k2, k3, k4⟩ := i64_pow (hi.z - lo.z) ez H.ext.2.2
  have hbig : ∀ (v : Int) (m : Nat), 2 ^ 20 < v → v ≤ 2 ^ m → 21 ≤ m := by
    intro v m h h'
    by_contra hm
    have : (2 : Int) ^ m ≤ 2 ^ 20 := pow_le_pow_right₀ (by norm_num) (by omega)
    omega
  have hscale : (i ≤ 20 ∧ j ≤ 20 ∧ k ≤ 20) ∨ (21 ≤ i ∧ 21 ≤ j ∧ 21 ≤ k) := by
    rcases H.scale with ⟨a, b, c⟩ | ⟨a, b, c⟩
    · exact Or.inl ⟨i4 a, j4 b, k4 c⟩
    · exact Or.inr ⟨hbig _ _ a i3, hbig _ _ b j3, hbig _ _ c k3⟩
  have hlen : 1 ≤ bs.length := by
    have := H.pos
    rcases bs with _ | ⟨b, r⟩
    · exact absurd rfl this
    · rw [List.length_cons]; omega
  unfold buildTree
  rw [h2]
  dsimp only
  rw [i2, j2, k2]
  obtain ⟨sm, rm, nodes, T, L, r1, r2⟩ := radixStruct_ok env ⟨lo, ⟨lo.x + 2 ^ i, lo.y + 2 ^ j, lo.z + 2 ^ k⟩⟩ (bs.map (·.lo)) level bs.length
    (by rw [List.length_map]) hlen H.lim (fun p _ => blockCode_some lo p i j k hscale) H.order
  rw [r1]
  dsimp only [Res.bind]
  obtain ⟨bmin, bmax, a1, a2, a3⟩ := boxes_ok bs sm rm nodes T L r2 env (by rw [H.launchMin]; omega) (by rw [H.launchMax]; omega)
    ⟨9223372036854775807, 9223372036854775807, 9223372036854775807⟩ ⟨-9223372036854775808, -9223372036854775808, -9223372036854775808⟩
  rw [a1, a2]
  refine ⟨_, rfl, fun accept => ?_⟩
  have hl := H.lim
  obtain ⟨found, f1, f2, f3, f4⟩ := rt_search ⟨sm, rm, nodes, bmin, bmax⟩ r2 (by omega) accept _ _ a3
  refine ⟨found, f1, f2, f3, fun i B hB hacc => f4 i (List.getElem?_eq_some_iff.1 hB).1 ?_⟩
  have e1 : (bs.map Box.lo).getD i (⟨0, 0, 0⟩ : V3 Int) = B.lo := by rw [List.getD_eq_getElem?_getD, List.getElem?_map, hB]; rfl
  have e2 : (bs.map Box.hi).getD i (⟨0, 0, 0⟩ : V3 Int) = B.hi := by rw [List.getD_eq_getElem?_getD, List.getElem?_map, hB]; rfl
  rw [e1, e2]
  exact hacc

end Shamrock.Amr
