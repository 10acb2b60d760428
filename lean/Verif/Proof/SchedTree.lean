import Verif.Proof.Sched
/-! The patch tree and the patch list, together, under the splits and merges of the scheduler. -/
namespace Shamrock

/-- The box lies inside the simulation box starting at `smin`, its upper bound can be incremented, and its lower bound is a u64. -/
def CoordOk (smin : V3 Nat) (c : PatchCoord) : Prop :=
  (smin.x ≤ c.cmin.x ∧ smin.y ≤ c.cmin.y ∧ smin.z ≤ c.cmin.z) ∧ (c.cmax.x + 1 < 2 ^ 64 ∧ c.cmax.y + 1 < 2 ^ 64 ∧ c.cmax.z + 1 < 2 ^ 64) ∧
  (c.cmin.x < 2 ^ 64 ∧ c.cmin.y < 2 ^ 64 ∧ c.cmin.z < 2 ^ 64)

theorem CoordOk.notFull {smin : V3 Nat} {c : PatchCoord} (h : CoordOk smin c) : NotFull c := by
  obtain ⟨-, h1, h2, h3⟩ := h
  unfold NotFull
  omega

theorem CoordOk.split {smin : V3 Nat} {c : PatchCoord} (h : CoordOk smin c) (hs : Splittable c) : ∀ ch ∈ getSplit c, CoordOk smin ch := by
  have hf := h.notFull
  obtain ⟨⟨mnx, mny, mnz⟩, ⟨mxx, mxy, mxz⟩⟩ := c
  obtain ⟨h1, h2⟩ := h
  obtain ⟨hx, hy, hz⟩ := hs
  obtain ⟨fx, fy, fz⟩ := hf
  simp only at hx hy hz fx fy fz h1 h2
  obtain ⟨ax, bx, cx⟩ := splitCoord1_bounds hx.1 hx.2 fx
  obtain ⟨ay, by', cy⟩ := splitCoord1_bounds hy.1 hy.2 fy
  obtain ⟨az, bz, cz⟩ := splitCoord1_bounds hz.1 hz.2 fz
  simp only [getSplit, getSplitCoord, cx, cy, cz]
  generalize splitCoord1 mnx mxx = sx at *
  generalize splitCoord1 mny mxy = sy at *
  generalize splitCoord1 mnz mxz = sz at *
  intro ch hch
  unfold CoordOk
  simp only [List.mem_cons, List.not_mem_nil, or_false] at hch
  rcases hch with rfl | rfl | rfl | rfl | rfl | rfl | rfl | rfl <;> simp only <;> omega

attribute [local irreducible] u64max getSplit PTNode.fresh

/-- The tree and the list of patches agree: each leaf is linked to one patch, with the same box, each patch is linked to one leaf, the other nodes to none. -/
structure TLInv (smin : V3 Nat) (t : PTree) (G : List Patch) : Prop where
  tinv : TInv t
  lev : TLev t
  coords : ∀ x n, t.tree x = some n → CoordOk smin n.coord
  splits : ∀ x n, t.tree x = some n → n.isLeaf = false → Splittable n.coord
  inner : ∀ x n, t.tree x = some n → n.isLeaf = false → n.linked = u64max
  leafP : ∀ x n, t.tree x = some n → n.isLeaf = true → ∃ p ∈ G, p.idPatch = n.linked ∧ p.coord = n.coord
  patchL : ∀ p ∈ G, ∃ x n, t.tree x = some n ∧ n.isLeaf = true ∧ n.linked = p.idPatch
  inj : ∀ x y n m, t.tree x = some n → t.tree y = some m → n.isLeaf = true → m.isLeaf = true → n.linked = m.linked → x = y

theorem linkAll_spec : ∀ (kvs : List (Nat × Nat)) (t : PTree), (kvs.map (·.1)).Nodup → (∀ kv ∈ kvs, ∃ n, t.tree kv.1 = some n) →
    ∃ t', linkAll kvs t = .ok t' ∧ SameShapeT t t' ∧ (∀ kv ∈ kvs, ∀ n, t.tree kv.1 = some n → t'.tree kv.1 = some { n with linked := kv.2 }) ∧
      ∀ y, y ∉ kvs.map (·.1) → t'.tree y = t.tree y := by
  intro kvs
  induction kvs with
  | nil => intro t _ _; exact ⟨t, rfl, SameShapeT.refl t, fun kv h => absurd h (List.not_mem_nil), fun y _ => rfl⟩
  | cons kv kvs ih =>
    obtain ⟨c, pid⟩ := kv
    intro t hn hex
    rw [List.map_cons, List.nodup_cons] at hn
    obtain ⟨n, hc⟩ := hex (c, pid) List.mem_cons_self
    obtain ⟨t1, e1, e2, e3, e4⟩ := setLinked_spec t c pid n hc
    have hne : ∀ kv ∈ kvs, kv.1 ≠ c := fun kv hkv e => hn.1 (by rw [← e]; exact List.mem_map_of_mem (f := (·.1)) hkv)
    obtain ⟨t2, f1, f2, f3, f4⟩ := ih t1 hn.2 (fun kv hkv => by
      rw [e4 _ (hne kv hkv)]; exact hex kv (List.mem_cons_of_mem _ hkv))
    refine ⟨t2, by simp only [linkAll, e1, Res.bind, f1], e2.trans f2, ?_, ?_⟩
    · intro kv hkv m hm
      rcases List.mem_cons.1 hkv with rfl | hkv
      · show t2.tree c = _
        rw [f4 c hn.1, e3]
        have hm : t.tree c = some m := hm
        rw [hc, Option.some.injEq] at hm
        rw [hm]
      · exact f3 kv hkv m (by rw [e4 _ (hne kv hkv)]; exact hm)
    · intro y hy
      rw [List.map_cons, List.mem_cons, not_or] at hy
      rw [f4 y hy.2, e4 y hy.1]

/-- Splitting a leaf and linking the children to the new patches. -/
theorem tl_split {smin : V3 Nat} {t : PTree} {G G' : List Patch} (H : TLInv smin t G) {p : Patch} {R : List Patch} (hG : G.Perm (p :: R))
    (hnd : (G.map (·.idPatch)).Nodup) {x : Nat} {n : PTNode} (hx : t.tree x = some n) (hl : n.isLeaf = true) (hp : n.linked = p.idPatch)
    (hs : Splittable n.coord) (hN : t.nextId + 8 ≤ 2 ^ 32) (junk : Nat) (kids : List Patch) (hk : kids.map (·.coord) = getSplit p.coord)
    (hkn : (kids.map (·.idPatch)).Nodup) (hkR : ∀ k ∈ kids, ∀ q ∈ R, k.idPatch ≠ q.idPatch) (hG' : G'.Perm (kids ++ R)) :
    p.coord = n.coord ∧
    ∃ t1 nd t2 t3, t.splitNode x junk = .ok t1 ∧ t1.tree x = some nd ∧ nd.linked = p.idPatch ∧ t1.setLinked x u64max = .ok t2 ∧
      linkAll (nd.childs.zip (kids.map (·.idPatch))) t2 = .ok t3 ∧ TLInv smin t3 G' ∧ t3.nextId = t.nextId + 8 ∧
      (∀ y m, y ≠ x → t.tree y = some m → ∃ b, t3.tree y = some { m with allLeafs := b }) := by
  have hpG : p ∈ G := hG.mem_iff.2 List.mem_cons_self
  have hpc : p.coord = n.coord := by
    obtain ⟨q, q1, q2, q3⟩ := H.leafP x n hx hl
    have : q = p := owned_inj hnd q1 hpG (by rw [q2, hp])
    rw [← this, q3]
  refine ⟨hpc, ?_⟩
  have hklen : kids.length = 8 := by
    have := congrArg List.length hk
    rw [List.length_map, getSplit_length] at this
    exact this
  obtain ⟨t1, s1, s2, s3, s4, s5, s6, -, -⟩ := split_spec t H.tinv x junk n hx hN
  have I1 := split_inv t H.tinv x junk n hx hl hN t1 s1
  have hxN := H.tinv.fresh x n hx
  obtain ⟨t2, l1, l2, l3, l4⟩ := setLinked_spec t1 x u64max _ s4
  have hzf : (((List.range' t.nextId 8).zip (kids.map (·.idPatch))).map (·.1)) = List.range' t.nextId 8 := by
    rw [List.map_fst_zip]; rw [List.length_map, hklen, List.length_range']
  have hnew2 : ∀ i < 8, ∃ c, (getSplit n.coord)[i]? = some c ∧ t2.tree (t.nextId + i) = some (PTNode.fresh c ((n.level + 1) % 2 ^ 32) x junk) := by
    intro i hi
    obtain ⟨c, c1, c2⟩ := s5 i hi
    exact ⟨c, c1, by rw [l4 _ (by omega)]; exact c2⟩
  obtain ⟨t3, k1, k2, k3, k4⟩ := linkAll_spec ((List.range' t.nextId 8).zip (kids.map (·.idPatch))) t2 (by rw [hzf]; exact List.nodup_range') (by
    intro kv hkv
    have : kv.1 ∈ List.range' t.nextId 8 := by rw [← hzf]; exact List.mem_map_of_mem hkv
    rw [List.mem_range'_1] at this
    obtain ⟨c, -, c2⟩ := hnew2 (kv.1 - t.nextId) (by omega)
    rw [show t.nextId + (kv.1 - t.nextId) = kv.1 by omega] at c2
    exact ⟨_, c2⟩)
  have I3 : TInv t3 := k2.inv (l2.inv I1)
  -- the nodes of the result
  have hX : t3.tree x = some { n with isLeaf := false, allLeafs := true, childs := List.range' t.nextId 8, linked := u64max } := by
    rw [k4 x (by rw [hzf, List.mem_range'_1]; omega), l3]
  have hNew : ∀ i < 8, ∃ k c, kids[i]? = some k ∧ k.coord = c ∧ (getSplit n.coord)[i]? = some c ∧
      t3.tree (t.nextId + i) = some { PTNode.fresh c ((n.level + 1) % 2 ^ 32) x junk with linked := k.idPatch } := by
    intro i hi
    obtain ⟨c, c1, c2⟩ := hnew2 i hi
    obtain ⟨k, hki⟩ : ∃ k, kids[i]? = some k := ⟨kids[i]'(by omega), List.getElem?_eq_getElem _⟩
    have hkc : k.coord = c := by
      have : (kids.map (·.coord))[i]? = some k.coord := by rw [List.getElem?_map, hki]; rfl
      rw [hk, hpc, c1, Option.some.injEq] at this
      exact this.symm
    refine ⟨k, c, hki, hkc, c1, ?_⟩
    refine k3 (t.nextId + i, k.idPatch) ?_ _ c2
    rw [List.mem_iff_getElem?]
    refine ⟨i, ?_⟩
    rw [List.getElem?_zip_eq_some]
    refine ⟨by rw [List.getElem?_range' hi]; simp, by rw [List.getElem?_map, hki]; rfl⟩
  have hOld : ∀ y, y ≠ x → ¬ (t.nextId ≤ y ∧ y < t.nextId + 8) → t3.tree y = (t.tree y).map (clearIf n.parent y) := by
    intro y hy hr
    rw [k4 y (by rw [hzf, List.mem_range'_1]; exact hr), l4 y hy, s6 y hy hr]
  have hOldm : ∀ y m, y ≠ x → t.tree y = some m → ∃ b, t3.tree y = some { m with allLeafs := b } := by
    intro y m hy hm
    have := H.tinv.fresh y m hm
    rw [hOld y hy (by omega), hm]
    simp only [Option.map_some, clearIf]
    split
    · exact ⟨false, rfl⟩
    · exact ⟨m.allLeafs, rfl⟩
  -- every node of the result
  have hcase : ∀ y m, t3.tree y = some m →
      (y = x ∧ m = { n with isLeaf := false, allLeafs := true, childs := List.range' t.nextId 8, linked := u64max }) ∨
      (∃ i < 8, ∃ k c, y = t.nextId + i ∧ kids[i]? = some k ∧ k.coord = c ∧ (getSplit n.coord)[i]? = some c ∧
        m = { PTNode.fresh c ((n.level + 1) % 2 ^ 32) x junk with linked := k.idPatch }) ∨
      (y ≠ x ∧ ∃ o b, t.tree y = some o ∧ m = { o with allLeafs := b }) := by
    intro y m hm
    by_cases h1 : y = x
    · subst h1
      rw [hX, Option.some.injEq] at hm
      exact Or.inl ⟨rfl, hm.symm⟩
    · by_cases h2 : t.nextId ≤ y ∧ y < t.nextId + 8
      · obtain ⟨k, c, a1, a2, a3, a4⟩ := hNew (y - t.nextId) (by omega)
        rw [show t.nextId + (y - t.nextId) = y by omega, hm, Option.some.injEq] at a4
        exact Or.inr (Or.inl ⟨y - t.nextId, by omega, k, c, by omega, a1, a2, a3, a4⟩)
      · rw [hOld y h1 h2] at hm
        cases ho : t.tree y with
        | none => rw [ho] at hm; cases hm
        | some o =>
          obtain ⟨b, hb⟩ := hOldm y o h1 ho
          rw [hOld y h1 h2, hm, Option.some.injEq] at hb
          exact Or.inr (Or.inr ⟨h1, o, b, rfl, hb⟩)
  have hfl : ∀ c l q j k, ({ PTNode.fresh c l q j with linked := k } : PTNode).isLeaf = true := by intros; unfold PTNode.fresh; rfl
  have hfc : ∀ c l q j k, ({ PTNode.fresh c l q j with linked := k } : PTNode).coord = c := by intros; unfold PTNode.fresh; rfl
  have hother : ∀ y o, y ≠ x → t.tree y = some o → o.isLeaf = true → ∃ q ∈ R, q.idPatch = o.linked ∧ q.coord = o.coord := by
    intro y o hy ho hlo
    obtain ⟨q, q1, q2, q3⟩ := H.leafP y o ho hlo
    rcases List.mem_cons.1 (hG.mem_iff.1 q1) with rfl | hq
    · exact absurd (H.inj y x o n ho hx hlo hl (by rw [← q2, hp])) hy
    · exact ⟨q, hq, q2, q3⟩
  refine ⟨t1, _, t2, t3, s1, s4, hp, l1, k1, ?_, ?_, hOldm⟩
  · refine ⟨I3, TLev.sameShape k2 (TLev.sameShape l2 (TLev.split H.tinv H.lev x junk n hx hN t1 s1)), ?_, ?_, ?_, ?_, ?_, ?_⟩
    · intro y m hm
      rcases hcase y m hm with ⟨_, rfl⟩ | ⟨i, hi, k, c, _, _, hkc, hc, rfl⟩ | ⟨_, o, b, ho, rfl⟩
      · exact H.coords x n hx
      · rw [hfc]
        exact (H.coords x n hx).split hs c (List.mem_of_getElem? hc)
      · exact H.coords y o ho
    · intro y m hm hlm
      rcases hcase y m hm with ⟨_, rfl⟩ | ⟨i, hi, k, c, _, _, hkc, hc, rfl⟩ | ⟨_, o, b, ho, rfl⟩
      · exact hs
      · rw [hfl] at hlm; cases hlm
      · exact H.splits y o ho hlm
    · intro y m hm hlm
      rcases hcase y m hm with ⟨_, rfl⟩ | ⟨i, hi, k, c, _, _, hkc, hc, rfl⟩ | ⟨_, o, b, ho, rfl⟩
      · rfl
      · rw [hfl] at hlm; cases hlm
      · exact H.inner y o ho hlm
    · intro y m hm hlm
      rcases hcase y m hm with ⟨_, rfl⟩ | ⟨i, hi, k, c, _, hki, hkc, hc, rfl⟩ | ⟨hy, o, b, ho, rfl⟩
      · cases hlm
      · refine ⟨k, hG'.mem_iff.2 (List.mem_append_left _ (List.mem_of_getElem? hki)), rfl, ?_⟩
        rw [hfc]; exact hkc
      · obtain ⟨q, q1, q2, q3⟩ := hother y o hy ho hlm
        exact ⟨q, hG'.mem_iff.2 (List.mem_append_right _ q1), q2, q3⟩
    · intro q hq
      rcases List.mem_append.1 (hG'.mem_iff.1 hq) with hq | hq
      · obtain ⟨i, hi⟩ := List.mem_iff_getElem?.1 hq
        have hi8 : i < 8 := by
          have := (List.getElem?_eq_some_iff.1 hi).1
          omega
        obtain ⟨k, c, a1, a2, a3, a4⟩ := hNew i hi8
        rw [hi, Option.some.injEq] at a1
        subst a1
        exact ⟨_, _, a4, hfl _ _ _ _ _, rfl⟩
      · obtain ⟨y, o, o1, o2, o3⟩ := H.patchL q (hG.mem_iff.2 (List.mem_cons_of_mem _ hq))
        have hy : y ≠ x := by
          rintro rfl
          rw [hx, Option.some.injEq] at o1
          subst o1
          have := (hG.map (·.idPatch)).nodup_iff.1 hnd
          rw [List.map_cons, List.nodup_cons] at this
          exact this.1 (by rw [← hp, o3]; exact List.mem_map_of_mem (f := (·.idPatch)) hq)
        obtain ⟨b, hb⟩ := hOldm y o hy o1
        exact ⟨y, _, hb, o2, o3⟩
    · intro y z m m' hm hm' hlm hlm' he
      have hkR' : ∀ (i : Nat) k q, kids[i]? = some k → q ∈ R → k.idPatch = q.idPatch → False :=
        fun i k q h1 h2 h3 => hkR k (List.mem_of_getElem? h1) q h2 h3
      rcases hcase y m hm with ⟨_, rfl⟩ | ⟨i, hi, k, c, rfl, hki, hkc, hc, rfl⟩ | ⟨hy, o, b, ho, rfl⟩
      · cases hlm
      · rcases hcase z m' hm' with ⟨_, rfl⟩ | ⟨j, hj, k', c', rfl, hkj, hkc', hc', rfl⟩ | ⟨hz, o', b', ho', rfl⟩
        · cases hlm'
        · have e : k.idPatch = k'.idPatch := he
          have : i = j := by
            have h1 : (kids.map (·.idPatch))[i]? = some k.idPatch := by rw [List.getElem?_map, hki]; rfl
            have h2 : (kids.map (·.idPatch))[j]? = some k.idPatch := by rw [List.getElem?_map, hkj, e]; rfl
            exact (List.getElem?_inj (by rw [List.length_map]; omega) hkn).1 (h1.trans h2.symm)
          rw [this]
        · obtain ⟨q, q1, q2, -⟩ := hother z o' hz ho' hlm'
          exact (hkR' i k q hki q1 (by rw [q2]; exact he)).elim
      · rcases hcase z m' hm' with ⟨_, rfl⟩ | ⟨j, hj, k', c', rfl, hkj, hkc', hc', rfl⟩ | ⟨hz, o', b', ho', rfl⟩
        · cases hlm'
        · obtain ⟨q, q1, q2, -⟩ := hother y o hy ho hlm
          exact (hkR' j k' q hkj q1 (by rw [q2]; exact he.symm)).elim
        · exact H.inj y z o o' ho ho' hlm hlm' he
  · rw [k2.2.2.2.1, l2.2.2.2.1, s2]

theorem linksOf_ok (t : PTree) : ∀ (cs : List Nat) (ps : List Patch), List.Forall₂ (fun c p => ∃ k, t.tree c = some k ∧ k.linked = p.idPatch) cs ps →
    linksOf t cs = .ok (ps.map (·.idPatch)) := by
  intro cs ps h
  induction h with
  | nil => rfl
  | cons a _ ih =>
    obtain ⟨k, k1, k2⟩ := a
    simp only [linksOf, k1, ih, Res.bind, k2, List.map_cons]

/-- The patches linked to the children of a parent of leaves. -/
theorem tl_children {smin : V3 Nat} {t : PTree} {G : List Patch} (H : TLInv smin t G) {x : Nat} {n : PTNode} (hx : t.tree x = some n)
    (ha : n.allLeafs = true) : ∃ ps : List Patch, List.Forall₂ (fun c p => ∃ k, t.tree c = some k ∧ k.linked = p.idPatch) n.childs ps ∧
      (∀ p ∈ ps, p ∈ G) ∧ ps.map (·.coord) = getSplit n.coord ∧ (ps.map (·.idPatch)).Nodup := by
  obtain ⟨hnl, hch⟩ := (H.tinv.flag x n hx).1 ha
  obtain ⟨hlen, hndc⟩ := H.tinv.kids x n hx hnl
  have key : ∀ c, c ∈ n.childs → ∃ p : Patch, p ∈ G ∧ ∃ k, t.tree c = some k ∧ k.isLeaf = true ∧ k.linked = p.idPatch ∧ p.coord = k.coord := by
    intro c hc
    obtain ⟨k, k1, k2⟩ := hch c hc
    obtain ⟨p, p1, p2, p3⟩ := H.leafP c k k1 k2
    exact ⟨p, p1, k, k1, k2, p2.symm, p3⟩
  haveI : Nonempty Patch := ⟨⟨0, 0, 0, ⟨⟨0, 0, 0⟩, ⟨0, 0, 0⟩⟩, 0⟩⟩
  choose! f hf using key
  refine ⟨n.childs.map f, ?_, ?_, ?_, ?_⟩
  · rw [List.forall₂_map_right_iff, List.forall₂_same]
    intro c hc
    obtain ⟨_, k, k1, _, k3, _⟩ := hf c hc
    exact ⟨k, k1, k3⟩
  · intro p hp
    obtain ⟨c, hc, rfl⟩ := List.mem_map.1 hp
    exact (hf c hc).1
  · apply List.ext_getElem?
    intro i
    rw [List.map_map, List.getElem?_map]
    cases hi : n.childs[i]? with
    | none =>
      rw [List.getElem?_eq_none_iff, hlen] at hi
      rw [List.getElem?_eq_none (by rw [getSplit_length]; exact hi)]; rfl
    | some c =>
      obtain ⟨k, k1, -, -, k4⟩ := H.tinv.down x n hx hnl i c hi
      obtain ⟨_, k', k1', _, _, k5⟩ := hf c (List.mem_of_getElem? hi)
      rw [k1, Option.some.injEq] at k1'
      subst k1'
      rw [k4, ← k5]; rfl
  · rw [List.map_map]
    refine List.Nodup.map_on (fun c hc d hd e => ?_) hndc
    obtain ⟨_, k, k1, k2, k3, _⟩ := hf c hc
    obtain ⟨_, k', k1', k2', k3', _⟩ := hf d hd
    exact H.inj c d k k' k1 k1' k2 k2' (by rw [k3, k3']; exact e)

/-- Merging the children of a node and linking it to the merged patch. -/
theorem tl_merge {smin : V3 Nat} {t : PTree} {G G' : List Patch} (H : TLInv smin t G) {ps R : List Patch} (hG : G.Perm (ps ++ R))
    (hnd : (G.map (·.idPatch)).Nodup) {x : Nat} {n : PTNode} (hx : t.tree x = some n) (ha : n.allLeafs = true)
    (hlk : List.Forall₂ (fun c p => ∃ k, t.tree c = some k ∧ k.linked = p.idPatch) n.childs ps) (q : Patch) (hqc : q.coord = n.coord)
    (hqi : q.idPatch ∈ ps.map (·.idPatch)) (hG' : G'.Perm (q :: R)) :
    ∃ t1 t2, t.mergeNode x = .ok t1 ∧ t1.setLinked x q.idPatch = .ok t2 ∧ TLInv smin t2 G' ∧ t2.nextId = t.nextId ∧
      (∀ y m, y ≠ x → y ∉ n.childs → t.tree y = some m → ∃ b, t2.tree y = some { m with allLeafs := b }) := by
  obtain ⟨hnl, hch⟩ := (H.tinv.flag x n hx).1 ha
  obtain ⟨t1, b, s1, s2, s3, s4, s5, s6, -, -, -, -, -, -⟩ := merge_spec t H.tinv x n hx ha
  have I1 := merge_inv t H.tinv x n hx ha t1 s1
  obtain ⟨t2, l1, l2, l3, l4⟩ := setLinked_spec t1 x q.idPatch _ s4
  have I2 : TInv t2 := l2.inv I1
  have hX : t2.tree x = some { n.merged with linked := q.idPatch } := l3
  have hOldm : ∀ y m, y ≠ x → y ∉ n.childs → t.tree y = some m → ∃ b, t2.tree y = some { m with allLeafs := b } := by
    intro y m hy hc hm
    rw [l4 y hy, s6 y hy hc, hm]
    simp only [Option.map_some, markIf]
    split
    · exact ⟨true, rfl⟩
    · exact ⟨m.allLeafs, rfl⟩
  have hcase : ∀ y m, t2.tree y = some m → (y = x ∧ m = { n.merged with linked := q.idPatch }) ∨
      (y ≠ x ∧ y ∉ n.childs ∧ ∃ o b, t.tree y = some o ∧ m = { o with allLeafs := b }) := by
    intro y m hm
    by_cases h1 : y = x
    · subst h1
      rw [hX, Option.some.injEq] at hm
      exact Or.inl ⟨rfl, hm.symm⟩
    · by_cases h2 : y ∈ n.childs
      · rw [l4 y h1, (s5 y h2).1] at hm; cases hm
      · cases ho : t.tree y with
        | none => rw [l4 y h1, s6 y h1 h2, ho] at hm; cases hm
        | some o =>
          obtain ⟨b, hb⟩ := hOldm y o h1 h2 ho
          rw [hm, Option.some.injEq] at hb
          exact Or.inr ⟨h1, h2, o, b, rfl, hb⟩
  -- a patch of the merged ones is linked to a child
  have hps : ∀ p ∈ ps, ∃ c ∈ n.childs, ∃ k, t.tree c = some k ∧ k.isLeaf = true ∧ k.linked = p.idPatch := by
    intro p hp
    obtain ⟨i, hi⟩ := List.mem_iff_getElem?.1 hp
    have hlt := (List.getElem?_eq_some_iff.1 hi).1
    have hlen := hlk.length_eq
    have := List.Forall₂.get hlk (i := i) (by omega) (by omega)
    obtain ⟨k, k1, k2⟩ := this
    have hcm : n.childs.get ⟨i, by omega⟩ ∈ n.childs := List.get_mem _ _
    obtain ⟨k', k1', k3⟩ := hch _ hcm
    rw [k1, Option.some.injEq] at k1'
    subst k1'
    have e : ps.get ⟨i, hlt⟩ = p := (List.getElem?_eq_some_iff.1 hi).2
    exact ⟨_, hcm, k, k1, k3, by rw [k2, e]⟩
  have hother : ∀ y o, y ∉ n.childs → t.tree y = some o → o.isLeaf = true → ∃ r ∈ R, r.idPatch = o.linked ∧ r.coord = o.coord := by
    intro y o hy ho hlo
    obtain ⟨r, r1, r2, r3⟩ := H.leafP y o ho hlo
    rcases List.mem_append.1 (hG.mem_iff.1 r1) with hr | hr
    · obtain ⟨c, c1, k, k1, k2, k3⟩ := hps r hr
      have : y = c := H.inj y c o k ho k1 hlo k2 (by rw [← r2, k3])
      exact absurd (this ▸ c1) hy
    · exact ⟨r, hr, r2, r3⟩
  have hnd' := (hG.map (·.idPatch)).nodup_iff.1 hnd
  rw [List.map_append, List.nodup_append] at hnd'
  have hqR : ∀ r ∈ R, r.idPatch ≠ q.idPatch := fun r hr e => hnd'.2.2 _ hqi _ (List.mem_map_of_mem (f := (·.idPatch)) hr) e.symm
  have hml : (({ n.merged with linked := q.idPatch } : PTNode)).isLeaf = true := rfl
  refine ⟨t1, t2, s1, l1, ?_, ?_, hOldm⟩
  · refine ⟨I2, TLev.sameShape l2 (TLev.merge H.tinv H.lev x n hx ha t1 s1), ?_, ?_, ?_, ?_, ?_, ?_⟩
    · intro y m hm
      rcases hcase y m hm with ⟨_, rfl⟩ | ⟨_, _, o, b, ho, rfl⟩
      · exact H.coords x n hx
      · exact H.coords y o ho
    · intro y m hm hlm
      rcases hcase y m hm with ⟨_, rfl⟩ | ⟨_, _, o, b, ho, rfl⟩
      · rw [hml] at hlm; cases hlm
      · exact H.splits y o ho hlm
    · intro y m hm hlm
      rcases hcase y m hm with ⟨_, rfl⟩ | ⟨_, _, o, b, ho, rfl⟩
      · rw [hml] at hlm; cases hlm
      · exact H.inner y o ho hlm
    · intro y m hm hlm
      rcases hcase y m hm with ⟨_, rfl⟩ | ⟨_, hc, o, b, ho, rfl⟩
      · exact ⟨q, hG'.mem_iff.2 List.mem_cons_self, rfl, hqc⟩
      · obtain ⟨r, r1, r2, r3⟩ := hother y o hc ho hlm
        exact ⟨r, hG'.mem_iff.2 (List.mem_cons_of_mem _ r1), r2, r3⟩
    · intro r hr
      rcases List.mem_cons.1 (hG'.mem_iff.1 hr) with rfl | hr
      · exact ⟨x, _, hX, hml, rfl⟩
      · obtain ⟨y, o, o1, o2, o3⟩ := H.patchL r (hG.mem_iff.2 (List.mem_append_right _ hr))
        have hyc : y ∉ n.childs := by
          intro hy
          obtain ⟨i, hi⟩ := List.mem_iff_getElem?.1 hy
          have hlt := (List.getElem?_eq_some_iff.1 hi).1
          have hlen := hlk.length_eq
          obtain ⟨k, k1, k2⟩ := List.Forall₂.get hlk (i := i) (by omega) (by omega)
          have e : n.childs.get ⟨i, hlt⟩ = y := (List.getElem?_eq_some_iff.1 hi).2
          rw [e, o1, Option.some.injEq] at k1
          subst k1
          exact hnd'.2.2 _ (List.mem_map_of_mem (f := (·.idPatch)) (List.get_mem ps ⟨i, by omega⟩)) _ (List.mem_map_of_mem (f := (·.idPatch)) hr) (by rw [← k2, o3])
        have hyx : y ≠ x := by
          rintro rfl
          rw [hx, Option.some.injEq] at o1
          subst o1
          rw [hnl] at o2; cases o2
        obtain ⟨b, hb⟩ := hOldm y o hyx hyc o1
        exact ⟨y, _, hb, o2, o3⟩
    · intro y z m m' hm hm' hlm hlm' he
      rcases hcase y m hm with ⟨rfl, rfl⟩ | ⟨_, hc, o, b, ho, rfl⟩
      · rcases hcase z m' hm' with ⟨rfl, rfl⟩ | ⟨_, hc', o', b', ho', rfl⟩
        · rfl
        · obtain ⟨r, r1, r2, -⟩ := hother z o' hc' ho' hlm'
          exact absurd (r2.trans he.symm) (hqR r r1)
      · rcases hcase z m' hm' with ⟨rfl, rfl⟩ | ⟨_, hc', o', b', ho', rfl⟩
        · obtain ⟨r, r1, r2, -⟩ := hother y o hc ho hlm
          exact absurd (r2.trans he) (hqR r r1)
        · exact H.inj y z o o' ho ho' hlm hlm' he
  · rw [l2.2.2.2.1, s2]

end Shamrock
