import Verif.Props.BVH
/-! Objects and boxes of all the cells: radix cells. -/
namespace Shamrock

section
variable {w n sb : Nat} {code : Nat → BitVec w} {sortMap redMap : List Nat} {nodes : List KNode} {T : KTree} {st : Nat → Nat}

theorem leafObjs_inj (H : StructOk n sb code sortMap redMap nodes T st) (o k k' : Nat) (hk : k ≤ nodes.length) (hk' : k' ≤ nodes.length)
    (o1 : o ∈ leafObjs sortMap st k) (o2 : o ∈ leafObjs sortMap st k') : k = k' := by
  have hdisj : ((List.range (nodes.length + 1)).flatMap (leafObjs sortMap st)).Nodup := (all_objs H).nodup_iff.2 List.nodup_range
  rw [List.nodup_flatMap] at hdisj
  by_contra hne
  have hp := hdisj.2
  rw [List.pairwise_iff_getElem] at hp
  rcases Nat.lt_or_gt_of_ne hne with hlt | hlt
  · have := hp k k' (by simp; omega) (by simp; omega) hlt
    simp only [List.getElem_range, Function.onFun] at this
    exact this o1 o2
  · have := hp k' k (by simp; omega) (by simp; omega) hlt
    simp only [List.getElem_range, Function.onFun] at this
    exact this o2 o1

theorem leaf_of_obj (H : StructOk n sb code sortMap redMap nodes T st) (i : Nat) (hi : i < n) : ∃ k ≤ nodes.length, i ∈ leafObjs sortMap st k := by
  have := (all_objs H).mem_iff.2 (List.mem_range.2 hi)
  obtain ⟨k, hk, h⟩ := List.mem_flatMap.1 this
  exact ⟨k, by have := List.mem_range.1 hk; omega, h⟩

theorem first_mem (H : StructOk n sb code sortMap redMap nodes T st) (k : Nat) (hk : k ≤ nodes.length) :
    sortedObj sortMap (st k) ∈ leafObjs sortMap st k := by
  unfold leafObjs
  rw [List.mem_map]
  exact ⟨st k, by rw [List.mem_range'_1]; have := H.lt k hk; omega, rfl⟩

theorem coarser {u v s s' : Nat} (h : u >>> s = v >>> s) (hle : s ≤ s') : u >>> s' = v >>> s' := by
  rw [show s' = s + (s' - s) by omega, Nat.shiftRight_add, Nat.shiftRight_add, h]

/-- Objects of a cell. -/
def cellObjs (sortMap : List Nat) (st : Nat → Nat) (S : KTree) : List Nat := S.leaves.flatMap (leafObjs sortMap st)

/-- The objects of a cell are exactly those with some prefix of code. -/
theorem cell_prefix (H : StructOk n sb code sortMap redMap nodes T st) (hsb : sb < w) (hbits : ∀ i < n, (code i).toNat < 2 ^ sb) (S : KTree)
    (hS : S ∈ T.subtrees) : ∃ s pre, s ≤ w ∧ ∀ i < n, i ∈ cellObjs sortMap st S ↔ (code i).toNat >>> s = pre := by
  have hleaf : ∀ k ∈ S.leaves, k ≤ nodes.length := fun k hk => subtree_leaf_le H S hS k hk
  obtain ⟨s, s1, s2⟩ := H.cellRadix S hS
  obtain ⟨k0, hk0⟩ := List.exists_mem_of_ne_nil _ (leaves_ne S)
  have hmemS : ∀ i j, j ≤ nodes.length → i ∈ leafObjs sortMap st j → (i ∈ cellObjs sortMap st S ↔ j ∈ S.leaves) := by
    intro i j hj hij
    unfold cellObjs
    rw [List.mem_flatMap]
    constructor
    · rintro ⟨k, hk, hik⟩
      rw [leafObjs_inj H i j k hj (hleaf k hk) hij hik]; exact hk
    · intro h; exact ⟨j, h, hij⟩
  cases hSc : S with
  | leaf k =>
    subst hSc
    obtain ⟨s', pre, q1, q2⟩ := leaf_prefix H hsb hbits k (hleaf k (by simp [KTree.leaves]))
    refine ⟨s', pre, q1, ?_⟩
    intro i hi
    simp only [cellObjs, KTree.leaves, List.flatMap_cons, List.flatMap_nil, List.append_nil]
    exact q2 i hi
  | node c l r =>
    have hnd : S.leaves.Nodup := by
      rcases subtree_leaves H.whole S hS with ⟨k, hk⟩ | ⟨i, l', r', nd, _, _, _, e, _⟩
      · rw [hk] at hSc; cases hSc
      · rw [e]; exact List.nodup_range'
    have hone : ∀ j, ∃ k1 ∈ S.leaves, k1 ≠ j := by
      intro j
      obtain ⟨a, ha⟩ := List.exists_mem_of_ne_nil _ (leaves_ne l)
      obtain ⟨b, hb⟩ := List.exists_mem_of_ne_nil _ (leaves_ne r)
      rw [hSc] at hnd ⊢
      show ∃ k1 ∈ l.leaves ++ r.leaves, k1 ≠ j
      have hab : a ≠ b := fun h => (List.nodup_append.1 (show (l.leaves ++ r.leaves).Nodup from hnd)).2.2 a ha b hb h
      by_cases h : a = j
      · exact ⟨b, List.mem_append_right _ hb, fun hb' => hab (h.trans hb'.symm)⟩
      · exact ⟨a, List.mem_append_left _ ha, h⟩
    rw [← hSc]
    refine ⟨s, (code (sortedObj sortMap (st k0))).toNat >>> s, s1, ?_⟩
    intro i hi
    obtain ⟨j, hj, hij⟩ := leaf_of_obj H i hi
    obtain ⟨sj, prej, _, qj⟩ := leaf_prefix H hsb hbits j hj
    have hlt : ∀ k ≤ nodes.length, sortedObj sortMap (st k) < n := fun k hk => mem_leafObjs_lt H k hk _ (first_mem H k hk)
    have hfirst := (qj _ (hlt j hj)).1 (first_mem H j hj)
    have hi' := (qj i hi).1 hij
    rw [hmemS i j hj hij]
    constructor
    · intro hjS
      rw [← (s2 k0 hk0 j hj).1 hjS]
      obtain ⟨k1, hk1, hne⟩ := hone j
      by_cases hle : sj ≤ s
      · exact coarser (hi'.trans hfirst.symm) hle
      · exfalso
        have e := (s2 j hjS k1 (hleaf k1 hk1)).1 hk1
        have e' := (coarser e (show s ≤ sj by omega)).trans hfirst
        exact hne (leafObjs_inj H _ k1 j (hleaf k1 hk1) hj (first_mem H k1 (hleaf k1 hk1)) ((qj _ (hlt k1 (hleaf k1 hk1))).2 e'))
    · intro he
      by_cases hle : sj ≤ s
      · exact (s2 k0 hk0 j hj).2 ((coarser (hfirst.trans hi'.symm) hle).trans he)
      · have e' := (coarser he.symm (show s ≤ sj by omega)).trans hi'
        have := leafObjs_inj H _ k0 j (hleaf k0 hk0) hj (first_mem H k0 (hleaf k0 hk0)) ((qj _ (hlt k0 (hleaf k0 hk0))).2 e')
        rw [← this]; exact hk0
end

section
variable {F : Type} [LinearOrder F] {w : Nat} {A : GridArith F} {C : MCode w} {env : BVHEnv F} {big small : F} {pmin : List (V3 F)}
  {P : Nat → V3 F} {objCnt : BitVec 32} {lo hi : V3 F}

/-- A point of the box of objects that share a prefix of code has this prefix. -/
theorem box_prefix (H : BVHIn A C env big small pmin pmin P P objCnt lo hi) (objs : List Nat) (s pre : Nat)
    (hpre : ∀ i ∈ objs, ((mortonOf A C lo hi (P i)).getD 0#w).toNat >>> s = pre) (a b p : V3 F) (hbox : IsBox P P objs a b)
    (hin : BoxIn p p a b) : ((mortonOf A C lo hi p).getD 0#w).toNat >>> s = pre := by
  obtain ⟨hsb, henc⟩ := H.code
  obtain ⟨⟨lx, ly, lz⟩, ⟨ux, uy, uz⟩⟩ := hbox
  obtain ⟨⟨p1, p2, p3⟩, ⟨q1, q2, q3⟩⟩ := hin
  obtain ⟨x, y, z, ex, ey, ez, hg, hm⟩ := mortonOf_some H p
  have hobj : ∀ i ∈ objs, ∃ x' y' z', gridCoord A C.bits lo.x hi.x (P i).x = some x' ∧
      gridCoord A C.bits lo.y hi.y (P i).y = some y' ∧ gridCoord A C.bits lo.z hi.z (P i).z = some z' ∧ InGrid C.bits x' y' z' ∧
      (C.enc x' y' z').toNat >>> s = pre := by
    intro i hi'
    obtain ⟨x', y', z', ex', ey', ez', hg', hm'⟩ := mortonOf_some H (P i)
    have := hpre i hi'
    rw [hm'] at this
    exact ⟨x', y', z', ex', ey', ez', hg', this⟩
  have hsame : ∀ {x1 y1 z1 x2 y2 z2 : Nat}, InGrid C.bits x1 y1 z1 → InGrid C.bits x2 y2 z2 → (C.enc x1 y1 z1).toNat >>> s = pre →
      (C.enc x2 y2 z2).toNat >>> s = pre → x1 >>> (s / 3) = x2 >>> (s / 3) ∧ y1 >>> ((s + 1) / 3) = y2 >>> ((s + 1) / 3) ∧
        z1 >>> ((s + 2) / 3) = z2 >>> ((s + 2) / 3) := by
    intro x1 y1 z1 x2 y2 z2 g1 g2 e1 e2
    exact (morton_prefix (henc _ _ _ g1) (henc _ _ _ g2) g1 g2).1 (e1.trans e2.symm)
  rw [hm]
  show (C.enc x y z).toNat >>> s = pre
  obtain ⟨i1, m1, v1⟩ := lx.2
  obtain ⟨i2, m2, v2⟩ := ux.2
  obtain ⟨i3, m3, v3⟩ := ly.2
  obtain ⟨i4, m4, v4⟩ := uy.2
  obtain ⟨i5, m5, v5⟩ := lz.2
  obtain ⟨i6, m6, v6⟩ := uz.2
  obtain ⟨x1, y1, z1, ex1, ey1, ez1, g1, c1⟩ := hobj i1 m1
  obtain ⟨x2, y2, z2, ex2, ey2, ez2, g2, c2⟩ := hobj i2 m2
  obtain ⟨x3, y3, z3, ex3, ey3, ez3, g3, c3⟩ := hobj i3 m3
  obtain ⟨x4, y4, z4, ex4, ey4, ez4, g4, c4⟩ := hobj i4 m4
  obtain ⟨x5, y5, z5, ex5, ey5, ez5, g5, c5⟩ := hobj i5 m5
  obtain ⟨x6, y6, z6, ex6, ey6, ez6, g6, c6⟩ := hobj i6 m6
  have bx1 := gridCoord_mono H.boxx (le_of_eq_of_le v1 p1) ex1 ex
  have bx2 := gridCoord_mono H.boxx (le_of_le_of_eq q1 v2.symm) ex ex2
  have by1 := gridCoord_mono H.boxy (le_of_eq_of_le v3 p2) ey3 ey
  have by2 := gridCoord_mono H.boxy (le_of_le_of_eq q2 v4.symm) ey ey4
  have bz1 := gridCoord_mono H.boxz (le_of_eq_of_le v5 p3) ez5 ez
  have bz2 := gridCoord_mono H.boxz (le_of_le_of_eq q3 v6.symm) ez ez6
  have rx := prefix_between (hsame g1 g2 c1 c2).1 (le_trans (min_le_left _ _) bx1) (le_trans bx2 (le_max_right _ _))
  have ry := prefix_between (hsame g3 g4 c3 c4).2.1 (le_trans (min_le_left _ _) by1) (le_trans by2 (le_max_right _ _))
  have rz := prefix_between (hsame g5 g6 c5 c6).2.2 (le_trans (min_le_left _ _) bz1) (le_trans bz2 (le_max_right _ _))
  refine Eq.trans ((morton_prefix (henc _ _ _ hg) (henc _ _ _ g1) hg g1).2 ⟨rx, ?_, ?_⟩) c1
  · exact ry.trans (hsame g3 g1 c3 c1).2.1
  · exact rz.trans (hsame g5 g1 c5 c1).2.2

theorem code_bits (H : BVHIn A C env big small pmin pmin P P objCnt lo hi) (i : Nat) :
    ((mortonOf A C lo hi (P i)).getD 0#w).toNat < 2 ^ (3 * C.bits) := by
  obtain ⟨hsb, henc⟩ := H.code
  obtain ⟨x, y, z, _, _, _, hg, h⟩ := mortonOf_some H (P i)
  rw [h]; exact isMorton_lt (henc x y z hg)

variable {n : Nat} {sortMap redMap : List Nat} {nodes : List KNode} {T : KTree} {st : Nat → Nat}

/-- Two cells whose boxes have a point in common are nested. -/
theorem cells_nested (H : BVHIn A C env big small pmin pmin P P objCnt lo hi)
    (K : StructOk objCnt.toNat (3 * C.bits) (fun i => (mortonOf A C lo hi (P i)).getD 0#w) sortMap redMap nodes T st) (S S' : KTree)
    (hS : S ∈ T.subtrees) (hS' : S' ∈ T.subtrees) (a b a' b' p : V3 F) (hbox : IsBox P P (cellObjs sortMap st S) a b)
    (hbox' : IsBox P P (cellObjs sortMap st S') a' b') (hin : BoxIn p p a b) (hin' : BoxIn p p a' b') :
    (∀ o ∈ cellObjs sortMap st S, o ∈ cellObjs sortMap st S') ∨ (∀ o ∈ cellObjs sortMap st S', o ∈ cellObjs sortMap st S) := by
  have hsb := H.code.1
  have hlt : ∀ R ∈ T.subtrees, ∀ o ∈ cellObjs sortMap st R, o < objCnt.toNat := by
    intro R hR o ho
    obtain ⟨k, hk, hok⟩ := List.mem_flatMap.1 ho
    exact mem_leafObjs_lt K k (subtree_leaf_le K R hR k hk) o hok
  obtain ⟨s, pre, _, q⟩ := cell_prefix K hsb (fun i _ => code_bits H i) S hS
  obtain ⟨s', pre', _, q'⟩ := cell_prefix K hsb (fun i _ => code_bits H i) S' hS'
  have e := box_prefix H _ s pre (fun i hi => (q i (hlt S hS i hi)).1 hi) a b p hbox hin
  have e' := box_prefix H _ s' pre' (fun i hi => (q' i (hlt S' hS' i hi)).1 hi) a' b' p hbox' hin'
  rcases Nat.le_total s s' with hle | hle
  · left
    intro o ho
    have h1 := (q o (hlt S hS o ho)).1 ho
    exact (q' o (hlt S hS o ho)).2 ((coarser (h1.trans e.symm) hle).trans e')
  · right
    intro o ho
    have h1 := (q' o (hlt S' hS' o ho)).1 ho
    exact (q o (hlt S' hS' o ho)).2 ((coarser (h1.trans e'.symm) hle).trans e)

end
end Shamrock
