import Verif.Model.PatchTree
import Verif.Props.Patch
/-! The invariant of the patch tree. -/
namespace Shamrock

/-- Invariant of the patch tree. -/
structure TInv (t : PTree) : Prop where
  fresh : ∀ id n, t.tree id = some n → id < t.nextId
  bound : t.nextId ≤ 2 ^ 32
  leaf : ∀ id, t.leafKey id = true ↔ ∃ n, t.tree id = some n ∧ n.isLeaf = true
  polk : ∀ id, t.polk id = true ↔ ∃ n, t.tree id = some n ∧ n.allLeafs = true
  flag : ∀ id n, t.tree id = some n →
    (n.allLeafs = true ↔ n.isLeaf = false ∧ ∀ c ∈ n.childs, ∃ k, t.tree c = some k ∧ k.isLeaf = true)
  kids : ∀ id n, t.tree id = some n → n.isLeaf = false → n.childs.length = 8 ∧ n.childs.Nodup
  down : ∀ id n, t.tree id = some n → n.isLeaf = false → ∀ (i : Nat) c, n.childs[i]? = some c →
    ∃ k, t.tree c = some k ∧ k.parent = id ∧ id < c ∧ (getSplit n.coord)[i]? = some k.coord
  up : ∀ id n, t.tree id = some n → n.parent ≠ u64max → ∃ p, t.tree n.parent = some p ∧ p.isLeaf = false ∧ id ∈ p.childs
  root : ∀ id, t.roots id = true ↔ ∃ n, t.tree id = some n ∧ n.parent = u64max

theorem u64max_big : 2 ^ 32 < u64max := by decide

attribute [local irreducible] u64max getSplit

theorem TInv.init : TInv PTree.init := by
  constructor <;> simp [PTree.init]

theorem insertAll_spec (ns : List PTNode) : ∀ t : PTree,
    (t.insertAll ns).2 = List.range' t.nextId ns.length ∧ (t.insertAll ns).1.nextId = t.nextId + ns.length ∧
    (t.insertAll ns).1.leafKey = t.leafKey ∧ (t.insertAll ns).1.polk = t.polk ∧ (t.insertAll ns).1.roots = t.roots ∧
    ∀ x, (t.insertAll ns).1.tree x = if t.nextId ≤ x ∧ x < t.nextId + ns.length then ns[x - t.nextId]? else t.tree x := by
  induction ns with
  | nil =>
    intro t
    refine ⟨rfl, rfl, rfl, rfl, rfl, fun x => ?_⟩
    rw [if_neg (by simp)]; rfl
  | cons n r ih =>
    intro t
    obtain ⟨h1, h2, h3, h4, h5, h6⟩ := ih (t.insertNode n).1
    have hN : (t.insertNode n).1.nextId = t.nextId + 1 := rfl
    unfold PTree.insertAll
    simp only
    refine ⟨?_, ?_, h3, h4, h5, ?_⟩
    · rw [h1, hN, List.length_cons, List.range'_succ]; rfl
    · rw [h2, hN, List.length_cons]; omega
    · intro x
      rw [h6 x, hN]
      have ht : (t.insertNode n).1.tree x = if x = t.nextId then some n else t.tree x := rfl
      rw [ht, List.length_cons]
      by_cases hx : x = t.nextId
      · subst hx
        rw [if_neg (by omega), if_pos rfl, if_pos (by omega), Nat.sub_self]; rfl
      · rw [if_neg hx]
        by_cases hr : t.nextId + 1 ≤ x ∧ x < t.nextId + 1 + r.length
        · rw [if_pos hr, if_pos (by omega), show x - t.nextId = (x - (t.nextId + 1)) + 1 by omega, List.getElem?_cons_succ]
        · rw [if_neg hr, if_neg (by omega)]

/-- The node `n` with its flag cleared if it is the parent `p`. -/
def clearIf (p x : Nat) (n : PTNode) : PTNode := if x = p then { n with allLeafs := false } else n

/-- Effect of a split. -/
theorem split_spec (t : PTree) (H : TInv t) (id junk : Nat) (curr : PTNode) (hc : t.tree id = some curr)
    (hN : t.nextId + 8 ≤ 2 ^ 32) :
    ∃ t', t.splitNode id junk = .ok t' ∧ t'.nextId = t.nextId + 8 ∧ t'.roots = t.roots ∧
      t'.tree id = some { curr with isLeaf := false, allLeafs := true, childs := List.range' t.nextId 8 } ∧
      (∀ i < 8, ∃ c, (getSplit curr.coord)[i]? = some c ∧
        t'.tree (t.nextId + i) = some (PTNode.fresh c ((curr.level + 1) % 2 ^ 32) id junk)) ∧
      (∀ x, x ≠ id → ¬ (t.nextId ≤ x ∧ x < t.nextId + 8) → t'.tree x = (t.tree x).map (clearIf curr.parent x)) ∧
      (∀ x, t'.leafKey x = if t.nextId ≤ x ∧ x < t.nextId + 8 then true else if x = id then false else t.leafKey x) ∧
      (∀ x, t'.polk x = if x = id then true else if x = curr.parent then false else t.polk x) := by
  have hid := H.fresh id curr hc
  have hlen : ((getSplit curr.coord).map fun c => PTNode.fresh c ((curr.level + 1) % 2 ^ 32) (id % 2 ^ 32) junk).length = 8 := by
    rw [List.length_map, getSplit_length]
  have hmod : id % 2 ^ 32 = id := Nat.mod_eq_of_lt (by omega)
  -- the parent step
  have hpar : ∃ t1, PTree.unmarkParent { t with leafKey := upd t.leafKey id false } curr.parent = .ok t1 ∧ t1.nextId = t.nextId ∧
      t1.roots = t.roots ∧ t1.leafKey = upd t.leafKey id false ∧
      (∀ x, t1.polk x = if x = curr.parent then false else t.polk x) ∧ ∀ x, t1.tree x = (t.tree x).map (clearIf curr.parent x) := by
    unfold PTree.unmarkParent
    by_cases hp : curr.parent = u64max
    · rw [if_pos hp]
      refine ⟨{ t with leafKey := upd t.leafKey id false }, rfl, rfl, rfl, rfl, ?_, ?_⟩
      · intro x
        show t.polk x = _
        by_cases hx : x = curr.parent
        · rw [if_pos hx, hx, hp]
          cases hb : t.polk u64max with
          | false => rfl
          | true =>
            obtain ⟨n, h1, _⟩ := (H.polk u64max).1 hb
            have := H.fresh _ _ h1
            have := u64max_big
            have := H.bound
            omega
        · rw [if_neg hx]
      · intro x
        show t.tree x = _
        cases hx : t.tree x with
        | none => rfl
        | some n =>
          have h1 := H.fresh _ _ hx
          have h2 := u64max_big
          have h3 := H.bound
          rw [Option.map_some, clearIf, if_neg (by rw [hp]; omega)]
    · rw [if_neg hp]
      obtain ⟨p, hp1, _, _⟩ := H.up id curr hc hp
      refine ⟨⟨upd t.tree curr.parent (some { p with allLeafs := false }), upd t.leafKey id false, upd t.polk curr.parent false, t.roots, t.nextId⟩,
        by simp only [hp1], rfl, rfl, rfl, ?_, ?_⟩
      · intro x; rfl
      · intro x
        show upd t.tree curr.parent (some { p with allLeafs := false }) x = _
        unfold upd
        by_cases hx : x = curr.parent
        · rw [if_pos hx, hx, hp1, Option.map_some, clearIf, if_pos rfl]
        · rw [if_neg hx]
          cases t.tree x with
          | none => rfl
          | some n => rw [Option.map_some, clearIf, if_neg hx]
  obtain ⟨t1, e1, e2, e3, e4, e5, e6⟩ := hpar
  obtain ⟨i1, i2, i3, i4, i5, i6⟩ := insertAll_spec
    (({ curr with isLeaf := false, allLeafs := true } : PTNode).getSplitNodes id junk) t1
  have hsn : ({ curr with isLeaf := false, allLeafs := true } : PTNode).getSplitNodes id junk =
      (getSplit curr.coord).map fun c => PTNode.fresh c ((curr.level + 1) % 2 ^ 32) (id % 2 ^ 32) junk := rfl
  have hlen2 : (({ curr with isLeaf := false, allLeafs := true } : PTNode).getSplitNodes id junk).length = 8 := by rw [hsn]; exact hlen
  rw [hlen2, e2] at i1 i2 i6
  refine ⟨_, by unfold PTree.splitNode; rw [hc]; simp only; rw [e1]; rfl, ?_, ?_, ?_, ?_, ?_, ?_, ?_⟩
  · exact i2
  · show (PTree.insertAll t1 _).1.roots = _
    exact i5.trans e3
  · show upd _ id _ id = _
    unfold upd
    rw [if_pos rfl]
    show some _ = some _
    rw [← i1]
  · intro i hi
    have hg : i < (getSplit curr.coord).length := by rw [getSplit_length]; exact hi
    refine ⟨_, List.getElem?_eq_getElem hg, ?_⟩
    show upd _ id _ (t.nextId + i) = _
    unfold upd
    rw [if_neg (by omega)]
    refine (i6 (t.nextId + i)).trans ?_
    rw [if_pos (by omega), show t.nextId + i - t.nextId = i by omega, hsn, List.getElem?_map, List.getElem?_eq_getElem hg, Option.map_some, hmod]
  · intro x hx hx2
    show upd _ id _ x = _
    unfold upd
    rw [if_neg hx]
    refine (i6 x).trans ?_
    rw [if_neg (by omega), e6]
  · intro x
    have : (∀ b : List Nat, b = List.range' t.nextId 8 → (x ∈ b ↔ t.nextId ≤ x ∧ x < t.nextId + 8)) := by
      intro b hb; rw [hb, List.mem_range'_1]
    show (if x ∈ (PTree.insertAll t1 _).2 then true else (PTree.insertAll t1 _).1.leafKey x) = _
    by_cases hx : t.nextId ≤ x ∧ x < t.nextId + 8
    · rw [if_pos hx, if_pos ((this _ i1).2 hx)]
    · rw [if_neg hx, if_neg (fun h => hx ((this _ i1).1 h))]
      refine (congrFun i3 x).trans ?_
      rw [e4]; rfl
  · intro x
    show upd _ id true x = _
    unfold upd
    by_cases hx : x = id
    · rw [if_pos hx, if_pos hx]
    · rw [if_neg hx, if_neg hx]
      exact (congrFun i4 x).trans (e5 x)

theorem clearIf_isLeaf (p x : Nat) (n : PTNode) : (clearIf p x n).isLeaf = n.isLeaf := by unfold clearIf; split <;> rfl
theorem clearIf_childs (p x : Nat) (n : PTNode) : (clearIf p x n).childs = n.childs := by unfold clearIf; split <;> rfl
theorem clearIf_parent (p x : Nat) (n : PTNode) : (clearIf p x n).parent = n.parent := by unfold clearIf; split <;> rfl
theorem clearIf_coord (p x : Nat) (n : PTNode) : (clearIf p x n).coord = n.coord := by unfold clearIf; split <;> rfl
theorem clearIf_linked (p x : Nat) (n : PTNode) : (clearIf p x n).linked = n.linked := by unfold clearIf; split <;> rfl

theorem split_inv (t : PTree) (H : TInv t) (id junk : Nat) (curr : PTNode) (hc : t.tree id = some curr) (hl : curr.isLeaf = true)
    (hN : t.nextId + 8 ≤ 2 ^ 32) (t' : PTree) (ht : t.splitNode id junk = .ok t') : TInv t' := by
  obtain ⟨t2, e0, hnext, hroots, hidn, hnew, hold, hleaf, hpolk⟩ := split_spec t H id junk curr hc hN
  rw [ht] at e0
  have e0 := Res.ok.inj e0
  subst e0
  clear ht
  have hid := H.fresh id curr hc
  have hub := u64max_big
  -- lookups
  have hcases : ∀ x n, t'.tree x = some n →
      (x = id ∧ n = { curr with isLeaf := false, allLeafs := true, childs := List.range' t.nextId 8 }) ∨
      (∃ i c, i < 8 ∧ x = t.nextId + i ∧ (getSplit curr.coord)[i]? = some c ∧ n = PTNode.fresh c ((curr.level + 1) % 2 ^ 32) id junk) ∨
      (x ≠ id ∧ x < t.nextId ∧ ∃ o, t.tree x = some o ∧ n = clearIf curr.parent x o) := by
    intro x n hx
    by_cases h1 : x = id
    · left
      subst h1
      rw [hidn, Option.some.injEq] at hx
      exact ⟨rfl, hx.symm⟩
    · by_cases h2 : t.nextId ≤ x ∧ x < t.nextId + 8
      · right; left
        obtain ⟨c, g1, g2⟩ := hnew (x - t.nextId) (by omega)
        rw [show t.nextId + (x - t.nextId) = x by omega, hx, Option.some.injEq] at g2
        exact ⟨x - t.nextId, c, by omega, by omega, g1, g2⟩
      · right; right
        rw [hold x h1 h2] at hx
        obtain ⟨o, g1, g2⟩ := Option.map_eq_some_iff.1 hx
        exact ⟨h1, H.fresh _ _ g1, o, g1, g2.symm⟩
  have hlook : ∀ x o, x ≠ id → t.tree x = some o → t'.tree x = some (clearIf curr.parent x o) := by
    intro x o h1 h2
    have := H.fresh _ _ h2
    rw [hold x h1 (by omega), h2, Option.map_some]
  constructor
  · intro x n hx
    rcases hcases x n hx with ⟨h1, _⟩ | ⟨i, c, h1, h2, _⟩ | ⟨_, h1, _⟩ <;> omega
  · omega
  · intro x
    rw [hleaf x]
    constructor
    · intro h
      by_cases h1 : t.nextId ≤ x ∧ x < t.nextId + 8
      · obtain ⟨c, g1, g2⟩ := hnew (x - t.nextId) (by omega)
        rw [show t.nextId + (x - t.nextId) = x by omega] at g2
        exact ⟨_, g2, rfl⟩
      · rw [if_neg h1] at h
        by_cases h2 : x = id
        · rw [if_pos h2] at h; cases h
        · rw [if_neg h2] at h
          obtain ⟨o, g1, g2⟩ := (H.leaf x).1 h
          exact ⟨_, hlook x o h2 g1, by rw [clearIf_isLeaf]; exact g2⟩
    · rintro ⟨n, h1, h2⟩
      rcases hcases x n h1 with ⟨_, rfl⟩ | ⟨i, c, g1, g2, _, _⟩ | ⟨g1, g2, o, g3, rfl⟩
      · cases h2
      · rw [if_pos (by omega)]
      · rw [if_neg (by omega), if_neg g1]
        rw [clearIf_isLeaf] at h2
        exact (H.leaf x).2 ⟨o, g3, h2⟩
  · intro x
    rw [hpolk x]
    constructor
    · intro h
      by_cases h1 : x = id
      · subst h1; exact ⟨_, hidn, rfl⟩
      · rw [if_neg h1] at h
        by_cases h2 : x = curr.parent
        · rw [if_pos h2] at h; cases h
        · rw [if_neg h2] at h
          obtain ⟨o, g1, g2⟩ := (H.polk x).1 h
          refine ⟨_, hlook x o h1 g1, ?_⟩
          unfold clearIf; rw [if_neg h2]; exact g2
    · rintro ⟨n, h1, h2⟩
      rcases hcases x n h1 with ⟨g, _⟩ | ⟨i, c, g1, g2, _, rfl⟩ | ⟨g1, g2, o, g3, rfl⟩
      · rw [if_pos g]
      · cases h2
      · rw [if_neg g1]
        unfold clearIf at h2
        by_cases h3 : x = curr.parent
        · rw [if_pos h3] at h2; cases h2
        · rw [if_neg h3] at h2 ⊢
          exact (H.polk x).2 ⟨o, g3, h2⟩
  · intro x n hx
    rcases hcases x n hx with ⟨rfl, rfl⟩ | ⟨i, c, g1, g2, _, rfl⟩ | ⟨g1, g2, o, g3, rfl⟩
    · constructor
      · intro _
        refine ⟨rfl, ?_⟩
        intro c hcm
        rw [List.mem_range'_1] at hcm
        obtain ⟨cc, _, q2⟩ := hnew (c - t.nextId) (by omega)
        rw [show t.nextId + (c - t.nextId) = c by omega] at q2
        exact ⟨_, q2, rfl⟩
      · intro _; rfl
    · constructor
      · intro h; cases h
      · rintro ⟨h, _⟩; cases h
    · rw [clearIf_isLeaf, clearIf_childs]
      by_cases h3 : x = curr.parent
      · have hne : curr.parent ≠ u64max := by have := H.bound; omega
        obtain ⟨p, p1, p2, p3⟩ := H.up id curr hc hne
        rw [← h3, g3, Option.some.injEq] at p1
        subst p1
        constructor
        · intro h
          unfold clearIf at h
          rw [if_pos h3] at h; cases h
        · rintro ⟨_, h⟩
          obtain ⟨k, k1, k2⟩ := h id p3
          rw [hidn, Option.some.injEq] at k1
          rw [← k1] at k2
          cases k2
      · have hcl : (clearIf curr.parent x o).allLeafs = o.allLeafs := by unfold clearIf; rw [if_neg h3]
        rw [hcl, H.flag x o g3]
        constructor
        · rintro ⟨q1, q2⟩
          refine ⟨q1, ?_⟩
          intro c hcm
          obtain ⟨k, k1, k2⟩ := q2 c hcm
          have hcid : c ≠ id := by
            intro he
            subst he
            obtain ⟨i, hi⟩ := List.mem_iff_getElem?.1 hcm
            obtain ⟨k', d1, d2, _⟩ := H.down x o g3 q1 i c hi
            rw [hc, Option.some.injEq] at d1
            subst d1
            exact h3 d2.symm
          exact ⟨_, hlook c k hcid k1, by rw [clearIf_isLeaf]; exact k2⟩
        · rintro ⟨q1, q2⟩
          refine ⟨q1, ?_⟩
          intro c hcm
          obtain ⟨i, hi⟩ := List.mem_iff_getElem?.1 hcm
          obtain ⟨k', d1, d2, _⟩ := H.down x o g3 q1 i c hi
          refine ⟨k', d1, ?_⟩
          have hcid : c ≠ id := by
            intro he
            subst he
            rw [hc, Option.some.injEq] at d1
            subst d1
            exact h3 d2.symm
          obtain ⟨k, k1, k2⟩ := q2 c hcm
          rw [hlook c k' hcid d1, Option.some.injEq] at k1
          rw [← k1, clearIf_isLeaf] at k2
          exact k2
  · intro x n hx hnl
    rcases hcases x n hx with ⟨rfl, rfl⟩ | ⟨i, c, g1, g2, _, rfl⟩ | ⟨g1, g2, o, g3, rfl⟩
    · exact ⟨List.length_range', List.nodup_range'⟩
    · cases hnl
    · rw [clearIf_isLeaf] at hnl
      rw [clearIf_childs]
      exact H.kids x o g3 hnl
  · intro x n hx hnl i c hi
    rcases hcases x n hx with ⟨rfl, rfl⟩ | ⟨j, cc, g1, g2, _, rfl⟩ | ⟨g1, g2, o, g3, rfl⟩
    · have hi8 : i < 8 := by
        have := (List.getElem?_eq_some_iff.1 hi).1
        simpa using this
      have hcv : c = t.nextId + i := by
        have := (List.getElem?_eq_some_iff.1 hi).2
        simp at this
        omega
      obtain ⟨cc, q1, q2⟩ := hnew i hi8
      rw [hcv]
      exact ⟨_, q2, rfl, by omega, q1⟩
    · cases hnl
    · rw [clearIf_isLeaf] at hnl
      rw [clearIf_childs] at hi
      obtain ⟨k, k1, k2, k3, k4⟩ := H.down x o g3 hnl i c hi
      rw [clearIf_coord]
      by_cases hcid : c = id
      · subst hcid
        rw [hc, Option.some.injEq] at k1
        subst k1
        exact ⟨_, hidn, k2, k3, k4⟩
      · exact ⟨_, hlook c k hcid k1, by rw [clearIf_parent]; exact k2, k3, by rw [clearIf_coord]; exact k4⟩
  · intro x n hx hp
    have hparlook : ∀ q p, t.tree q = some p → p.isLeaf = false → ∀ y ∈ p.childs, ∃ p', t'.tree q = some p' ∧ p'.isLeaf = false ∧ y ∈ p'.childs := by
      intro q p h1 h2 y hy
      have hqid : q ≠ id := by
        intro he; subst he
        rw [hc, Option.some.injEq] at h1
        subst h1
        rw [hl] at h2; cases h2
      exact ⟨_, hlook q p hqid h1, by rw [clearIf_isLeaf]; exact h2, by rw [clearIf_childs]; exact hy⟩
    rcases hcases x n hx with ⟨rfl, rfl⟩ | ⟨j, cc, g1, g2, _, rfl⟩ | ⟨g1, g2, o, g3, rfl⟩
    · obtain ⟨p, p1, p2, p3⟩ := H.up x curr hc hp
      exact hparlook _ p p1 p2 x p3
    · refine ⟨_, hidn, rfl, ?_⟩
      rw [List.mem_range'_1]; omega
    · rw [clearIf_parent] at hp ⊢
      obtain ⟨p, p1, p2, p3⟩ := H.up x o g3 hp
      exact hparlook _ p p1 p2 x p3
  · intro x
    rw [hroots, H.root x]
    constructor
    · rintro ⟨o, h1, h2⟩
      by_cases hx : x = id
      · subst hx
        rw [hc, Option.some.injEq] at h1
        subst h1
        exact ⟨_, hidn, h2⟩
      · exact ⟨_, hlook x o hx h1, by rw [clearIf_parent]; exact h2⟩
    · rintro ⟨n, h1, h2⟩
      rcases hcases x n h1 with ⟨rfl, rfl⟩ | ⟨j, cc, g1, g2, _, rfl⟩ | ⟨g1, g2, o, g3, rfl⟩
      · exact ⟨curr, hc, h2⟩
      · have h3 : id = u64max := h2
        omega
      · rw [clearIf_parent] at h2
        exact ⟨o, g3, h2⟩

theorem onlyLeafs_spec (t : PTree) (l : List Nat) (h : ∀ c ∈ l, ∃ k, t.tree c = some k) :
    ∃ b, t.onlyLeafs l = .ok b ∧ (b = true ↔ ∀ c ∈ l, ∃ k, t.tree c = some k ∧ k.isLeaf = true) := by
  induction l with
  | nil => exact ⟨true, rfl, by simp⟩
  | cons c r ih =>
    obtain ⟨k, hk⟩ := h c List.mem_cons_self
    obtain ⟨b, h1, h2⟩ := ih (fun c hc => h c (List.mem_cons_of_mem _ hc))
    unfold PTree.onlyLeafs
    rw [hk]
    simp only
    by_cases hl : k.isLeaf = true
    · rw [if_pos hl]
      refine ⟨b, h1, ?_⟩
      rw [h2]
      constructor
      · intro hr c' hc'
        rcases List.mem_cons.1 hc' with rfl | hc'
        · exact ⟨k, hk, hl⟩
        · exact hr c' hc'
      · intro hr c' hc'
        exact hr c' (List.mem_cons_of_mem _ hc')
    · rw [if_neg hl]
      refine ⟨false, rfl, ?_⟩
      constructor
      · intro hh; cases hh
      · intro hr
        obtain ⟨k', g1, g2⟩ := hr c List.mem_cons_self
        rw [hk, Option.some.injEq] at g1
        subst g1
        exact absurd g2 hl

/-- The node `n` with its flag set if it is the parent `p` and `b` holds. -/
def markIf (b : Bool) (p x : Nat) (n : PTNode) : PTNode := if x = p ∧ b = true then { n with allLeafs := true } else n

theorem markIf_isLeaf (b : Bool) (p x : Nat) (n : PTNode) : (markIf b p x n).isLeaf = n.isLeaf := by unfold markIf; split <;> rfl
theorem markIf_childs (b : Bool) (p x : Nat) (n : PTNode) : (markIf b p x n).childs = n.childs := by unfold markIf; split <;> rfl
theorem markIf_parent (b : Bool) (p x : Nat) (n : PTNode) : (markIf b p x n).parent = n.parent := by unfold markIf; split <;> rfl
theorem markIf_coord (b : Bool) (p x : Nat) (n : PTNode) : (markIf b p x n).coord = n.coord := by unfold markIf; split <;> rfl
theorem markIf_linked (b : Bool) (p x : Nat) (n : PTNode) : (markIf b p x n).linked = n.linked := by unfold markIf; split <;> rfl

/-- The merged node. -/
def PTNode.merged (pn : PTNode) : PTNode := { pn with childs := List.replicate 8 u64max, isLeaf := true, allLeafs := false }

/-- Effect of a merge. `b`: all siblings of the merged node are leaves. -/
theorem merge_spec (t : PTree) (H : TInv t) (id : Nat) (pn : PTNode) (hc : t.tree id = some pn) (ha : pn.allLeafs = true) :
    ∃ t' b, t.mergeNode id = .ok t' ∧ t'.nextId = t.nextId ∧ t'.roots = t.roots ∧ t'.tree id = some pn.merged ∧
      (∀ x ∈ pn.childs, t'.tree x = none ∧ x ≠ id) ∧
      (∀ x, x ≠ id → x ∉ pn.childs → t'.tree x = (t.tree x).map (markIf b pn.parent x)) ∧
      (∀ x, t'.leafKey x = if x = id then true else if x ∈ pn.childs then false else t.leafKey x) ∧
      (∀ x, t'.polk x = if x = pn.parent ∧ b = true then true else if x = id then false else t.polk x) ∧
      (pn.parent = u64max → b = false) ∧
      (∀ pp, t.tree pn.parent = some pp → pn.parent ≠ u64max →
        (b = true ↔ ∀ c ∈ pp.childs, c = id ∨ ∃ k, t.tree c = some k ∧ k.isLeaf = true)) ∧
      pn.parent ∉ pn.childs ∧ pn.parent ≠ id := by
  have hid := H.fresh id pn hc
  have hub := u64max_big
  have hb := H.bound
  obtain ⟨hnl, hch⟩ := (H.flag id pn hc).1 ha
  have hgt : ∀ c ∈ pn.childs, id < c ∧ ∃ k, t.tree c = some k ∧ k.parent = id := by
    intro c hcm
    obtain ⟨i, hi⟩ := List.mem_iff_getElem?.1 hcm
    obtain ⟨k, k1, k2, k3, _⟩ := H.down id pn hc hnl i c hi
    exact ⟨k3, k, k1, k2⟩
  have hpar : pn.parent ∉ pn.childs ∧ pn.parent ≠ id := by
    by_cases hp : pn.parent = u64max
    · constructor
      · intro hm
        obtain ⟨_, k, k1, _⟩ := hgt _ hm
        have := H.fresh _ _ k1
        omega
      · omega
    · obtain ⟨p, p1, p2, p3⟩ := H.up id pn hc hp
      obtain ⟨i, hi⟩ := List.mem_iff_getElem?.1 p3
      obtain ⟨k, k1, k2, k3, _⟩ := H.down _ p p1 p2 i id hi
      constructor
      · intro hm
        have := (hgt _ hm).1
        omega
      · omega
  -- the intermediate tree
  let T1 : Nat → Option PTNode := upd (fun k => if k ∈ pn.childs then none else t.tree k) id (some pn.merged)
  let t1 : PTree := { t with
        leafKey := upd (fun k => if k ∈ pn.childs then false else t.leafKey k) id true
        tree := T1
        polk := upd t.polk id false }
  have hT1 : ∀ x, t1.tree x = if x = id then some pn.merged else if x ∈ pn.childs then none else t.tree x := fun x => rfl
  have h1id : t1.tree id = some pn.merged := by rw [hT1, if_pos rfl]
  have h1ch : ∀ x ∈ pn.childs, t1.tree x = none ∧ x ≠ id := by
    intro x hx
    have hne : x ≠ id := by have := (hgt x hx).1; omega
    refine ⟨?_, hne⟩
    rw [hT1, if_neg hne, if_pos hx]
  have h1o : ∀ x, x ≠ id → x ∉ pn.childs → t1.tree x = t.tree x := by
    intro x h1 h2
    rw [hT1, if_neg h1, if_neg h2]
  have hl1 : ∀ x, t1.leafKey x = if x = id then true else if x ∈ pn.childs then false else t.leafKey x := fun x => rfl
  have hp1 : ∀ x, t1.polk x = if x = id then false else t.polk x := fun x => rfl
  have hmk : ∀ x, (t.tree x).map (markIf false pn.parent x) = t.tree x := by
    intro x
    cases t.tree x with
    | none => rfl
    | some n => rw [Option.map_some, markIf, if_neg (by simp)]
  have hstart : t.mergeNode id = t1.remarkParent pn.parent := by
    unfold PTree.mergeNode
    rw [hc]
    simp only
    rw [if_neg (by rw [ha]; simp)]
    rfl
  by_cases hp : pn.parent = u64max
  · refine ⟨t1, false, ?_, rfl, rfl, h1id, h1ch, fun x h1 h2 => by rw [hmk]; exact h1o x h1 h2, hl1, fun x => ?_, fun _ => rfl,
      fun pp _ hne => absurd hp hne, hpar⟩
    · rw [hstart]; unfold PTree.remarkParent; rw [if_pos hp]
    · rw [if_neg (by simp)]; exact hp1 x
  · obtain ⟨p, p1, p2, p3⟩ := H.up id pn hc hp
    have hpt : t1.tree pn.parent = some p := by rw [h1o _ hpar.2 hpar.1]; exact p1
    have hex : ∀ c ∈ p.childs, c ∉ pn.childs ∧ ∃ k, t.tree c = some k := by
      intro c hcm
      obtain ⟨i, hi⟩ := List.mem_iff_getElem?.1 hcm
      obtain ⟨k, k1, k2, k3, _⟩ := H.down _ p p1 p2 i c hi
      refine ⟨?_, k, k1⟩
      intro hm
      obtain ⟨_, k', q1, q2⟩ := hgt c hm
      rw [k1, Option.some.injEq] at q1
      subst q1
      exact hpar.2 (k2.symm.trans q2)
    obtain ⟨b, b1, b2⟩ := onlyLeafs_spec t1 p.childs (fun c hcm => by
      by_cases he : c = id
      · subst he; exact ⟨_, h1id⟩
      · rw [h1o c he (hex c hcm).1]; exact (hex c hcm).2)
    have b3 : b = true ↔ ∀ c ∈ p.childs, c = id ∨ ∃ k, t.tree c = some k ∧ k.isLeaf = true := by
      rw [b2]
      constructor
      · intro h c hcm
        by_cases he : c = id
        · exact Or.inl he
        · right
          have := h c hcm
          rw [h1o c he (hex c hcm).1] at this
          exact this
      · intro h c hcm
        by_cases he : c = id
        · subst he; exact ⟨_, h1id, rfl⟩
        · rw [h1o c he (hex c hcm).1]
          rcases h c hcm with h | h
          · exact absurd h he
          · exact h
    have hfin : ∀ pp, t.tree pn.parent = some pp → pn.parent ≠ u64max →
        (b = true ↔ ∀ c ∈ pp.childs, c = id ∨ ∃ k, t.tree c = some k ∧ k.isLeaf = true) := by
      intro pp h _
      rw [p1, Option.some.injEq] at h
      subst h
      exact b3
    have hrp : t1.remarkParent pn.parent = if b = true then .ok { t1 with polk := upd t1.polk pn.parent true, tree := upd t1.tree pn.parent (some { p with allLeafs := true }) } else .ok t1 := by
      unfold PTree.remarkParent
      rw [if_neg hp, hpt]
      simp only
      rw [b1]; rfl
    cases hbv : b with
    | false =>
      refine ⟨t1, false, ?_, rfl, rfl, h1id, h1ch, fun x h1 h2 => by rw [hmk]; exact h1o x h1 h2, hl1, fun x => ?_, fun _ => rfl, ?_, hpar⟩
      · rw [hstart, hrp, if_neg (by rw [hbv]; simp)]
      · rw [if_neg (by simp)]; exact hp1 x
      · intro pp h1 h2
        have := hfin pp h1 h2
        rw [hbv] at this
        exact this
    | true =>
      refine ⟨{ t1 with polk := upd t1.polk pn.parent true, tree := upd t1.tree pn.parent (some { p with allLeafs := true }) }, true, ?_, rfl, rfl,
        ?_, ?_, ?_, hl1, ?_, fun h => absurd h hp, ?_, hpar⟩
      · rw [hstart, hrp, if_pos hbv]
      · show upd t1.tree pn.parent _ id = _
        unfold upd; rw [if_neg (fun h => hpar.2 h.symm)]; exact h1id
      · intro x hx
        refine ⟨?_, (h1ch x hx).2⟩
        show upd t1.tree pn.parent _ x = _
        unfold upd; rw [if_neg (fun h => hpar.1 (by rw [← h]; exact hx))]; exact (h1ch x hx).1
      · intro x h1 h2
        show upd t1.tree pn.parent _ x = _
        unfold upd
        by_cases hx : x = pn.parent
        · rw [if_pos hx, hx, p1, Option.map_some, markIf, if_pos ⟨rfl, rfl⟩]
        · rw [if_neg hx, h1o x h1 h2]
          cases t.tree x with
          | none => rfl
          | some n => rw [Option.map_some, markIf, if_neg (fun h => hx h.1)]
      · intro x
        show upd t1.polk pn.parent true x = _
        unfold upd
        by_cases hx : x = pn.parent
        · rw [if_pos hx, if_pos ⟨hx, rfl⟩]
        · rw [if_neg hx, if_neg (fun h => hx h.1)]; exact hp1 x
      · intro pp h1 h2
        have := hfin pp h1 h2
        rw [hbv] at this
        exact this

theorem merge_inv (t : PTree) (H : TInv t) (id : Nat) (pn : PTNode) (hc : t.tree id = some pn) (ha : pn.allLeafs = true)
    (t' : PTree) (ht : t.mergeNode id = .ok t') : TInv t' := by
  obtain ⟨t2, b, e0, hnext, hroots, hidn, hch, hold, hleaf, hpolk, hbr, hbp, hpc, hpi⟩ := merge_spec t H id pn hc ha
  rw [ht] at e0
  have e0 := Res.ok.inj e0
  subst e0
  clear ht
  have hub := u64max_big
  have hbd := H.bound
  obtain ⟨hnl, hkl⟩ := (H.flag id pn hc).1 ha
  have hcases : ∀ x n, t'.tree x = some n → (x = id ∧ n = pn.merged) ∨
      (x ≠ id ∧ x ∉ pn.childs ∧ ∃ o, t.tree x = some o ∧ n = markIf b pn.parent x o) := by
    intro x n hx
    by_cases h1 : x = id
    · left; subst h1
      rw [hidn, Option.some.injEq] at hx
      exact ⟨rfl, hx.symm⟩
    · right
      by_cases h2 : x ∈ pn.childs
      · rw [(hch x h2).1] at hx; cases hx
      · rw [hold x h1 h2] at hx
        obtain ⟨o, g1, g2⟩ := Option.map_eq_some_iff.1 hx
        exact ⟨h1, h2, o, g1, g2.symm⟩
  have hlook : ∀ x o, x ≠ id → x ∉ pn.childs → t.tree x = some o → t'.tree x = some (markIf b pn.parent x o) := by
    intro x o h1 h2 h3
    rw [hold x h1 h2, h3, Option.map_some]
  -- a child of another node is not one of the removed ones
  have hdisj : ∀ x o, x ≠ id → t.tree x = some o → o.isLeaf = false → ∀ c ∈ o.childs, c ∉ pn.childs ∧ ∃ k, t.tree c = some k ∧ k.parent = x := by
    intro x o h1 h2 h3 c hcm
    obtain ⟨i, hi⟩ := List.mem_iff_getElem?.1 hcm
    obtain ⟨k, k1, k2, _⟩ := H.down x o h2 h3 i c hi
    refine ⟨?_, k, k1, k2⟩
    intro hm
    obtain ⟨j, hj⟩ := List.mem_iff_getElem?.1 hm
    obtain ⟨k', q1, q2, _⟩ := H.down id pn hc hnl j c hj
    rw [k1, Option.some.injEq] at q1
    subst q1
    exact h1 (k2.symm.trans q2)
  constructor
  · intro x n hx
    rcases hcases x n hx with ⟨rfl, _⟩ | ⟨_, _, o, h, _⟩
    · rw [hnext]; exact H.fresh _ _ hc
    · rw [hnext]; exact H.fresh _ _ h
  · omega
  · intro x
    rw [hleaf x]
    constructor
    · intro h
      by_cases h1 : x = id
      · subst h1; exact ⟨_, hidn, rfl⟩
      · rw [if_neg h1] at h
        by_cases h2 : x ∈ pn.childs
        · rw [if_pos h2] at h; cases h
        · rw [if_neg h2] at h
          obtain ⟨o, g1, g2⟩ := (H.leaf x).1 h
          exact ⟨_, hlook x o h1 h2 g1, by rw [markIf_isLeaf]; exact g2⟩
    · rintro ⟨n, h1, h2⟩
      rcases hcases x n h1 with ⟨g, _⟩ | ⟨g1, g2, o, g3, rfl⟩
      · rw [if_pos g]
      · rw [if_neg g1, if_neg g2]
        rw [markIf_isLeaf] at h2
        exact (H.leaf x).2 ⟨o, g3, h2⟩
  · intro x
    rw [hpolk x]
    constructor
    · intro h
      by_cases h1 : x = pn.parent ∧ b = true
      · have hne : pn.parent ≠ u64max := fun he => by rw [hbr he] at h1; cases h1.2
        obtain ⟨p, p1, _, _⟩ := H.up id pn hc hne
        rw [h1.1]
        refine ⟨_, hlook _ p hpi hpc p1, ?_⟩
        unfold markIf; rw [if_pos ⟨rfl, h1.2⟩]
      · rw [if_neg h1] at h
        by_cases h2 : x = id
        · rw [if_pos h2] at h; cases h
        · rw [if_neg h2] at h
          obtain ⟨o, g1, g2⟩ := (H.polk x).1 h
          have hxc : x ∉ pn.childs := by
            intro hm
            obtain ⟨k, k1, k2⟩ := hkl x hm
            rw [g1, Option.some.injEq] at k1
            subst k1
            rw [((H.flag x o g1).1 g2).1] at k2
            cases k2
          refine ⟨_, hlook x o h2 hxc g1, ?_⟩
          unfold markIf; rw [if_neg h1]; exact g2
    · rintro ⟨n, h1, h2⟩
      rcases hcases x n h1 with ⟨g, rfl⟩ | ⟨g1, g2, o, g3, rfl⟩
      · cases h2
      · by_cases h3 : x = pn.parent ∧ b = true
        · rw [if_pos h3]
        · rw [if_neg h3, if_neg g1]
          unfold markIf at h2
          rw [if_neg h3] at h2
          exact (H.polk x).2 ⟨o, g3, h2⟩
  · intro x n hx
    rcases hcases x n hx with ⟨rfl, rfl⟩ | ⟨g1, g2, o, g3, rfl⟩
    · constructor
      · intro h; cases h
      · rintro ⟨h, _⟩; cases h
    · rw [markIf_isLeaf, markIf_childs]
      have hstep : o.isLeaf = false → ((∀ c ∈ o.childs, ∃ k, t'.tree c = some k ∧ k.isLeaf = true) ↔
          ∀ c ∈ o.childs, c = id ∨ ∃ k, t.tree c = some k ∧ k.isLeaf = true) := by
        intro ho
        constructor
        · intro h c hcm
          by_cases he : c = id
          · exact Or.inl he
          · right
            obtain ⟨hcn, k', k1', _⟩ := hdisj x o g1 g3 ho c hcm
            obtain ⟨k, k1, k2⟩ := h c hcm
            rw [hlook c k' he hcn k1', Option.some.injEq] at k1
            rw [← k1, markIf_isLeaf] at k2
            exact ⟨k', k1', k2⟩
        · intro h c hcm
          by_cases he : c = id
          · subst he; exact ⟨_, hidn, rfl⟩
          · obtain ⟨hcn, _⟩ := hdisj x o g1 g3 ho c hcm
            rcases h c hcm with h | ⟨k, k1, k2⟩
            · exact absurd h he
            · exact ⟨_, hlook c k he hcn k1, by rw [markIf_isLeaf]; exact k2⟩
      by_cases h3 : x = pn.parent
      · have hne : pn.parent ≠ u64max := by have := H.fresh _ _ g3; omega
        obtain ⟨p, p1, p2, p3⟩ := H.up id pn hc hne
        rw [← h3, g3, Option.some.injEq] at p1
        subst p1
        have hb := hbp o (by rw [← h3]; exact g3) hne
        rw [← hstep p2] at hb
        have hold' : o.allLeafs = false := by
          cases hh : o.allLeafs with
          | false => rfl
          | true =>
            obtain ⟨_, q⟩ := (H.flag x o g3).1 hh
            obtain ⟨k, k1, k2⟩ := q id p3
            rw [hc, Option.some.injEq] at k1
            subst k1
            rw [hnl] at k2; cases k2
        by_cases hbt : b = true
        · constructor
          · intro _; exact ⟨p2, hb.1 hbt⟩
          · intro _; unfold markIf; rw [if_pos ⟨h3, hbt⟩]
        · constructor
          · intro h
            unfold markIf at h
            rw [if_neg (fun hh => hbt hh.2), hold'] at h
            cases h
          · rintro ⟨_, h⟩; exact absurd (hb.2 h) hbt
      · have hcl : (markIf b pn.parent x o).allLeafs = o.allLeafs := by unfold markIf; rw [if_neg (fun h => h3 h.1)]
        rw [hcl, H.flag x o g3]
        constructor
        · rintro ⟨q1, q2⟩
          exact ⟨q1, (hstep q1).2 (fun c hcm => Or.inr (q2 c hcm))⟩
        · rintro ⟨q1, q2⟩
          refine ⟨q1, ?_⟩
          intro c hcm
          rcases (hstep q1).1 q2 c hcm with h | h
          · exfalso
            subst h
            obtain ⟨_, k, k1, k2⟩ := hdisj x o g1 g3 q1 c hcm
            rw [hc, Option.some.injEq] at k1
            subst k1
            exact h3 k2.symm
          · exact h
  · intro x n hx hnl'
    rcases hcases x n hx with ⟨rfl, rfl⟩ | ⟨g1, g2, o, g3, rfl⟩
    · cases hnl'
    · rw [markIf_isLeaf] at hnl'
      rw [markIf_childs]
      exact H.kids x o g3 hnl'
  · intro x n hx hnl' i c hi
    rcases hcases x n hx with ⟨rfl, rfl⟩ | ⟨g1, g2, o, g3, rfl⟩
    · cases hnl'
    · rw [markIf_isLeaf] at hnl'
      rw [markIf_childs] at hi
      rw [markIf_coord]
      obtain ⟨k, k1, k2, k3, k4⟩ := H.down x o g3 hnl' i c hi
      by_cases hcid : c = id
      · subst hcid
        rw [hc, Option.some.injEq] at k1
        subst k1
        exact ⟨_, hidn, k2, k3, k4⟩
      · obtain ⟨hcn, _⟩ := hdisj x o g1 g3 hnl' c (List.mem_iff_getElem?.2 ⟨i, hi⟩)
        exact ⟨_, hlook c k hcid hcn k1, by rw [markIf_parent]; exact k2, k3, by rw [markIf_coord]; exact k4⟩
  · intro x n hx hp
    have hparlook : ∀ q p, q ≠ id → t.tree q = some p → p.isLeaf = false → ∀ y ∈ p.childs, ∃ p', t'.tree q = some p' ∧ p'.isLeaf = false ∧ y ∈ p'.childs := by
      intro q p hq h1 h2 y hy
      have hqc : q ∉ pn.childs := by
        intro hm
        obtain ⟨k, k1, k2⟩ := hkl q hm
        rw [h1, Option.some.injEq] at k1
        subst k1
        rw [h2] at k2; cases k2
      exact ⟨_, hlook q p hq hqc h1, by rw [markIf_isLeaf]; exact h2, by rw [markIf_childs]; exact hy⟩
    rcases hcases x n hx with ⟨rfl, rfl⟩ | ⟨g1, g2, o, g3, rfl⟩
    · obtain ⟨p, p1, p2, p3⟩ := H.up x pn hc hp
      exact hparlook _ p hpi p1 p2 x p3
    · rw [markIf_parent] at hp ⊢
      obtain ⟨p, p1, p2, p3⟩ := H.up x o g3 hp
      refine hparlook _ p ?_ p1 p2 x p3
      intro he
      rw [he, hc, Option.some.injEq] at p1
      subst p1
      exact g2 p3
  · intro x
    rw [hroots, H.root x]
    constructor
    · rintro ⟨o, h1, h2⟩
      by_cases hx : x = id
      · subst hx
        rw [hc, Option.some.injEq] at h1
        subst h1
        exact ⟨_, hidn, h2⟩
      · have hxc : x ∉ pn.childs := by
          intro hm
          obtain ⟨i, hi⟩ := List.mem_iff_getElem?.1 hm
          obtain ⟨k, k1, k2, k3, _⟩ := H.down id pn hc hnl i x hi
          rw [h1, Option.some.injEq] at k1
          subst k1
          have := H.fresh _ _ h1
          omega
        exact ⟨_, hlook x o hx hxc h1, by rw [markIf_parent]; exact h2⟩
    · rintro ⟨n, h1, h2⟩
      rcases hcases x n h1 with ⟨rfl, rfl⟩ | ⟨g1, g2, o, g3, rfl⟩
      · exact ⟨pn, hc, h2⟩
      · rw [markIf_parent] at h2
        exact ⟨o, g3, h2⟩

/-- A new root. -/
theorem root_inv (t : PTree) (H : TInv t) (pid : Nat) (c : PatchCoord) (hN : t.nextId + 1 ≤ 2 ^ 32) : TInv (t.insertRoot pid c) := by
  have hub := u64max_big
  have hg : ∀ x, (t.insertRoot pid c).tree x = if x = t.nextId then some (PTNode.fresh c 0 u64max (pid % 2 ^ 32)) else t.tree x := fun _ => rfl
  have hnone : t.tree t.nextId = none := by
    cases h : t.tree t.nextId with
    | none => rfl
    | some n => have := H.fresh _ _ h; omega
  have hold : ∀ x n, t.tree x = some n → (t.insertRoot pid c).tree x = some n := by
    intro x n h
    rw [hg, if_neg (by have := H.fresh _ _ h; omega)]; exact h
  have hcases : ∀ x n, (t.insertRoot pid c).tree x = some n →
      (x = t.nextId ∧ n = PTNode.fresh c 0 u64max (pid % 2 ^ 32)) ∨ (x ≠ t.nextId ∧ t.tree x = some n) := by
    intro x n h
    rw [hg] at h
    by_cases hx : x = t.nextId
    · rw [if_pos hx, Option.some.injEq] at h; exact Or.inl ⟨hx, h.symm⟩
    · rw [if_neg hx] at h; exact Or.inr ⟨hx, h⟩
  constructor
  · intro x n h
    show x < t.nextId + 1
    rcases hcases x n h with ⟨h, _⟩ | ⟨_, h⟩
    · omega
    · have := H.fresh _ _ h; omega
  · exact hN
  · intro x
    show upd t.leafKey t.nextId true x = true ↔ _
    unfold upd
    by_cases hx : x = t.nextId
    · rw [if_pos hx]
      subst hx
      exact ⟨fun _ => ⟨_, by rw [hg, if_pos rfl], rfl⟩, fun _ => rfl⟩
    · rw [if_neg hx, H.leaf x, hg, if_neg hx]
  · intro x
    show t.polk x = true ↔ _
    by_cases hx : x = t.nextId
    · subst hx
      rw [H.polk, hnone, hg, if_pos rfl]
      constructor
      · rintro ⟨n, h, _⟩; cases h
      · rintro ⟨n, h, h2⟩
        rw [Option.some.injEq] at h
        subst h
        cases h2
    · rw [H.polk x, hg, if_neg hx]
  · intro x n h
    rcases hcases x n h with ⟨_, rfl⟩ | ⟨_, h⟩
    · constructor
      · intro h; cases h
      · rintro ⟨h, _⟩; cases h
    · rw [H.flag x n h]
      constructor
      · rintro ⟨h1, h2⟩
        refine ⟨h1, fun c hc => ?_⟩
        obtain ⟨k, k1, k2⟩ := h2 c hc
        exact ⟨k, hold _ _ k1, k2⟩
      · rintro ⟨h1, h2⟩
        refine ⟨h1, fun c hc => ?_⟩
        obtain ⟨k, k1, k2⟩ := h2 c hc
        obtain ⟨i, hi⟩ := List.mem_iff_getElem?.1 hc
        obtain ⟨k', d1, _⟩ := H.down x n h h1 i c hi
        rw [hold _ _ d1, Option.some.injEq] at k1
        subst k1
        exact ⟨k', d1, k2⟩
  · intro x n h hl
    rcases hcases x n h with ⟨_, rfl⟩ | ⟨_, h⟩
    · cases hl
    · exact H.kids x n h hl
  · intro x n h hl i c hi
    rcases hcases x n h with ⟨_, rfl⟩ | ⟨_, h⟩
    · cases hl
    · obtain ⟨k, k1, k2⟩ := H.down x n h hl i c hi
      exact ⟨k, hold _ _ k1, k2⟩
  · intro x n h hp
    rcases hcases x n h with ⟨_, rfl⟩ | ⟨_, h⟩
    · exact absurd rfl hp
    · obtain ⟨p, p1, p2⟩ := H.up x n h hp
      exact ⟨p, hold _ _ p1, p2⟩
  · intro x
    show upd t.roots t.nextId true x = true ↔ _
    unfold upd
    by_cases hx : x = t.nextId
    · rw [if_pos hx]
      subst hx
      exact ⟨fun _ => ⟨_, by rw [hg, if_pos rfl], rfl⟩, fun _ => rfl⟩
    · rw [if_neg hx, H.root x, hg, if_neg hx]

end Shamrock

namespace Shamrock

/-- Two trees that differ only by the patch links and the load values. -/
def SameShapeT (t t' : PTree) : Prop :=
  t'.leafKey = t.leafKey ∧ t'.polk = t.polk ∧ t'.roots = t.roots ∧ t'.nextId = t.nextId ∧
  ∀ x, (∀ n, t.tree x = some n → ∃ l p, t'.tree x = some { n with load := l, linked := p }) ∧ (t.tree x = none → t'.tree x = none)

theorem SameShapeT.refl (t : PTree) : SameShapeT t t := ⟨rfl, rfl, rfl, rfl, fun _ => ⟨fun n h => ⟨n.load, n.linked, h⟩, id⟩⟩

theorem SameShapeT.trans {a b c : PTree} (h : SameShapeT a b) (g : SameShapeT b c) : SameShapeT a c := by
  obtain ⟨h1, h2, h3, h4, h5⟩ := h
  obtain ⟨g1, g2, g3, g4, g5⟩ := g
  refine ⟨g1.trans h1, g2.trans h2, g3.trans h3, g4.trans h4, fun x => ⟨fun n hn => ?_, fun hn => (g5 x).2 ((h5 x).2 hn)⟩⟩
  obtain ⟨l, p, e⟩ := (h5 x).1 n hn
  obtain ⟨l', p', e'⟩ := (g5 x).1 _ e
  exact ⟨l', p', e'⟩

theorem SameShapeT.back {t t' : PTree} (h : SameShapeT t t') {x : Nat} {n : PTNode} (hx : t'.tree x = some n) :
    ∃ o l p, t.tree x = some o ∧ n = { o with load := l, linked := p } := by
  cases ho : t.tree x with
  | none => rw [(h.2.2.2.2 x).2 ho] at hx; cases hx
  | some o =>
    obtain ⟨l, p, e⟩ := (h.2.2.2.2 x).1 o ho
    rw [e, Option.some.injEq] at hx
    exact ⟨o, l, p, rfl, hx.symm⟩

theorem SameShapeT.inv {t t' : PTree} (h : SameShapeT t t') (H : TInv t) : TInv t' := by
  have hb : ∀ {x n}, t'.tree x = some n → ∃ o l p, t.tree x = some o ∧ n = { o with load := l, linked := p } := fun hx => h.back hx
  have hf : ∀ {x o}, t.tree x = some o → ∃ l p, t'.tree x = some { o with load := l, linked := p } := fun {x o} hx => (h.2.2.2.2 x).1 o hx
  obtain ⟨h1, h2, h3, h4, _⟩ := h
  have hP : ∀ (P : PTNode → Prop), (∀ o l p, P o ↔ P { o with load := l, linked := p }) → ∀ x, (∃ n, t'.tree x = some n ∧ P n) ↔ ∃ n, t.tree x = some n ∧ P n := by
    intro P hp x
    constructor
    · rintro ⟨n, a, b⟩
      obtain ⟨o, l, p, e1, e2⟩ := hb a
      subst e2
      exact ⟨o, e1, (hp o l p).2 b⟩
    · rintro ⟨n, a, b⟩
      obtain ⟨l, p, e⟩ := hf a
      exact ⟨_, e, (hp n l p).1 b⟩
  constructor
  · intro x n hx
    obtain ⟨o, l, p, e1, _⟩ := hb hx
    rw [h4]; exact H.fresh x o e1
  · rw [h4]; exact H.bound
  · intro x; rw [h1, H.leaf x, hP (fun n => n.isLeaf = true) (fun _ _ _ => Iff.rfl)]
  · intro x; rw [h2, H.polk x, hP (fun n => n.allLeafs = true) (fun _ _ _ => Iff.rfl)]
  · intro x n hx
    obtain ⟨o, l, p, e1, e2⟩ := hb hx
    subst e2
    have := H.flag x o e1
    constructor
    · intro g
      obtain ⟨g1, g2⟩ := this.1 g
      exact ⟨g1, fun c hc => (hP (fun n => n.isLeaf = true) (fun _ _ _ => Iff.rfl) c).2 (g2 c hc)⟩
    · rintro ⟨g1, g2⟩
      exact this.2 ⟨g1, fun c hc => (hP (fun n => n.isLeaf = true) (fun _ _ _ => Iff.rfl) c).1 (g2 c hc)⟩
  · intro x n hx hl
    obtain ⟨o, l, p, e1, e2⟩ := hb hx
    subst e2
    exact H.kids x o e1 hl
  · intro x n hx hl i c hi
    obtain ⟨o, l, p, e1, e2⟩ := hb hx
    subst e2
    obtain ⟨k, k1, k2, k3, k4⟩ := H.down x o e1 hl i c hi
    obtain ⟨l', p', e⟩ := hf k1
    exact ⟨_, e, k2, k3, k4⟩
  · intro x n hx hp
    obtain ⟨o, l, p, e1, e2⟩ := hb hx
    subst e2
    obtain ⟨k, k1, k2, k3⟩ := H.up x o e1 hp
    obtain ⟨l', p', e⟩ := hf k1
    exact ⟨_, e, k2, k3⟩
  · intro x; rw [h3, H.root x, hP (fun n => n.parent = u64max) (fun _ _ _ => Iff.rfl)]

theorem setLinked_spec (t : PTree) (x pid : Nat) (n : PTNode) (h : t.tree x = some n) :
    ∃ t', t.setLinked x pid = .ok t' ∧ SameShapeT t t' ∧ t'.tree x = some { n with linked := pid } ∧ ∀ y, y ≠ x → t'.tree y = t.tree y := by
  have e : ∀ y, upd t.tree x (some { n with linked := pid }) y = if y = x then some { n with linked := pid } else t.tree y := fun _ => rfl
  refine ⟨⟨upd t.tree x (some { n with linked := pid }), t.leafKey, t.polk, t.roots, t.nextId⟩, ?_, ⟨rfl, rfl, rfl, rfl, fun y => ⟨fun m hm => ?_, fun hm => ?_⟩⟩, ?_, ?_⟩
  · unfold PTree.setLinked; rw [h]
  · show ∃ l p, upd _ _ _ y = _
    by_cases hy : y = x
    · subst hy
      rw [h, Option.some.injEq] at hm
      subst hm
      exact ⟨n.load, pid, by rw [e, if_pos rfl]⟩
    · exact ⟨m.load, m.linked, by rw [e, if_neg hy]; exact hm⟩
  · show upd _ _ _ y = _
    have hy : y ≠ x := by rintro rfl; rw [h] at hm; cases hm
    rw [e, if_neg hy]; exact hm
  · show upd _ _ _ x = _
    rw [e, if_pos rfl]
  · intro y hy
    show upd _ _ _ y = _
    rw [e, if_neg hy]

end Shamrock
