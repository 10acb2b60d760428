import Verif.Proof.PatchLoads
/-! Property C36 (the patch tree over every history) and the part of C37 about split and merge requests. -/
namespace Shamrock

/-- The operations a scheduler applies to the patch tree. -/
inductive TOp where
  | root (patchId : Nat) (box : PatchCoord)
  | split (id junk : Nat)
  | merge (id : Nat)
  | link (id patchId : Nat)

/-- One operation. -/
def TOp.run : TOp → PTree → Res PTree
  | .root p c, t => .ok (t.insertRoot p c)
  | .split i j, t => t.splitNode i j
  | .merge i, t => t.mergeNode i
  | .link i p, t => t.setLinked i p

/-- When the scheduler may apply it: splits of leaves, merges of parents of only leaves, links of existing nodes; fewer than 2^32 nodes are
ever created (`get_split_nodes` takes the parent id as a `u32`). -/
def TOp.legal : TOp → PTree → Prop
  | .root _ _, t => t.nextId + 1 ≤ 2 ^ 32
  | .split i _, t => t.leafKey i = true ∧ t.nextId + 8 ≤ 2 ^ 32
  | .merge i, t => t.polk i = true
  | .link i _, t => ∃ n, t.tree i = some n

/-- `t'` is reached from `t` by a history of legal operations. -/
inductive THist : PTree → PTree → Prop
  | nil (t : PTree) : THist t t
  | snoc {t t1 t2 : PTree} (o : TOp) : THist t t1 → o.legal t1 → o.run t1 = .ok t2 → THist t t2

/-- Specification: a consistent forest. -/
structure ForestOk (t : PTree) : Prop where
  /-- the leaf list is exactly the set of leaves -/
  leaves : ∀ id, t.leafKey id = true ↔ ∃ n, t.tree id = some n ∧ n.isLeaf = true
  /-- the list of parents of only leaves is exactly the set of internal nodes whose children are all leaves -/
  parents : ∀ id, t.polk id = true ↔ ∃ n, t.tree id = some n ∧ n.isLeaf = false ∧ ∀ c ∈ n.childs, ∃ k, t.tree c = some k ∧ k.isLeaf = true
  /-- an internal node has eight different children which exist, point back to it and own its eight octants in order -/
  children : ∀ id n, t.tree id = some n → n.isLeaf = false → n.childs.length = 8 ∧ n.childs.Nodup ∧
    ∀ (i : Nat) c, n.childs[i]? = some c → ∃ k, t.tree c = some k ∧ k.parent = id ∧ (getSplit n.coord)[i]? = some k.coord
  /-- a node is a root, or it is one of the children of its parent, which exists, is older and is not a leaf -/
  parent : ∀ id n, t.tree id = some n → (t.roots id = true ∧ n.parent = u64max) ∨
    (t.roots id = false ∧ n.parent < id ∧ ∃ p, t.tree n.parent = some p ∧ p.isLeaf = false ∧ id ∈ p.childs)
  /-- roots exist -/
  rootEx : ∀ id, t.roots id = true → ∃ n, t.tree id = some n

theorem TInv.forest {t : PTree} (H : TInv t) : ForestOk t := by
  have hub := u64max_big
  have hbd := H.bound
  refine ⟨H.leaf, ?_, ?_, ?_, ?_⟩
  · intro id
    rw [H.polk id]
    constructor
    · rintro ⟨n, h1, h2⟩
      obtain ⟨a, b⟩ := (H.flag id n h1).1 h2
      exact ⟨n, h1, a, b⟩
    · rintro ⟨n, h1, h2, h3⟩
      exact ⟨n, h1, (H.flag id n h1).2 ⟨h2, h3⟩⟩
  · intro id n h hl
    obtain ⟨a, b⟩ := H.kids id n h hl
    refine ⟨a, b, fun i c hi => ?_⟩
    obtain ⟨k, k1, k2, _, k4⟩ := H.down id n h hl i c hi
    exact ⟨k, k1, k2, k4⟩
  · intro id n h
    by_cases hp : n.parent = u64max
    · exact Or.inl ⟨(H.root id).2 ⟨n, h, hp⟩, hp⟩
    · right
      obtain ⟨p, p1, p2, p3⟩ := H.up id n h hp
      obtain ⟨i, hi⟩ := List.mem_iff_getElem?.1 p3
      obtain ⟨k, k1, k2, k3, _⟩ := H.down _ p p1 p2 i id hi
      refine ⟨?_, k3, p, p1, p2, p3⟩
      cases hr : t.roots id with
      | false => rfl
      | true =>
        obtain ⟨m, m1, m2⟩ := (H.root id).1 hr
        rw [h, Option.some.injEq] at m1
        subst m1
        exact absurd m2 hp
  · intro id h
    obtain ⟨n, h1, _⟩ := (H.root id).1 h
    exact ⟨n, h1⟩

/-- A legal operation succeeds and keeps the invariant. -/
theorem TOp.step {t : PTree} (H : TInv t) (o : TOp) (hl : o.legal t) : ∃ t', o.run t = .ok t' ∧ TInv t' := by
  cases o with
  | root p c => exact ⟨_, rfl, root_inv t H p c hl⟩
  | split i j =>
    obtain ⟨h1, h2⟩ := hl
    obtain ⟨n, n1, n2⟩ := (H.leaf i).1 h1
    obtain ⟨t', e, _⟩ := split_spec t H i j n n1 h2
    exact ⟨t', e, split_inv t H i j n n1 n2 h2 t' e⟩
  | merge i =>
    obtain ⟨n, n1, n2⟩ := (H.polk i).1 hl
    obtain ⟨t', b, e, _⟩ := merge_spec t H i n n1 n2
    exact ⟨t', e, merge_inv t H i n n1 n2 t' e⟩
  | link i p =>
    obtain ⟨n, n1⟩ := hl
    obtain ⟨t', e, s, _⟩ := setLinked_spec t i p n n1
    exact ⟨t', e, s.inv H⟩

theorem THist.inv {t t' : PTree} (h : THist t t') (H : TInv t) : TInv t' := by
  induction h with
  | nil => exact H
  | snoc o _ hl hr ih =>
    obtain ⟨t2, e, I⟩ := TOp.step ih o hl
    rw [hr] at e
    rw [Res.ok.inj e]; exact I

/-- C36: after every history of legal operations from the empty tree the forest is consistent. -/
theorem C36_history_consistent (t : PTree) (h : THist PTree.init t) : ForestOk t := (h.inv TInv.init).forest

/-- C36: no legal operation fails after any history: no exception, no access to a missing node. -/
theorem C36_history_no_failure (t : PTree) (h : THist PTree.init t) (o : TOp) (hl : o.legal t) : ∃ t', o.run t = .ok t' := by
  obtain ⟨t', e, _⟩ := TOp.step (h.inv TInv.init) o hl
  exact ⟨t', e⟩

/-- An id handed out and free stays free. -/
theorem TOp.dead {t t' : PTree} (H : TInv t) (o : TOp) (hl : o.legal t) (hr : o.run t = .ok t') :
    t.nextId ≤ t'.nextId ∧ ∀ x, x < t.nextId → t.tree x = none → t'.tree x = none := by
  cases o with
  | root p c =>
    have := Res.ok.inj hr
    subst this
    refine ⟨Nat.le_succ _, fun x h1 h2 => ?_⟩
    show upd t.tree t.nextId _ x = _
    unfold upd
    rw [if_neg (by omega)]; exact h2
  | split i j =>
    obtain ⟨h1, h2⟩ := hl
    obtain ⟨n, n1, n2⟩ := (H.leaf i).1 h1
    obtain ⟨t2, e, e1, _, _, _, e5, _⟩ := split_spec t H i j n n1 h2
    have e' : Res.ok t' = Res.ok t2 := hr.symm.trans e
    have := Res.ok.inj e'
    subst this
    refine ⟨by omega, fun x g1 g2 => ?_⟩
    rw [e5 x (by rintro rfl; rw [n1] at g2; cases g2) (by omega), g2]; rfl
  | merge i =>
    obtain ⟨n, n1, n2⟩ := (H.polk i).1 hl
    obtain ⟨t2, b, e, e1, _, _, e4, e5, _⟩ := merge_spec t H i n n1 n2
    have e' : Res.ok t' = Res.ok t2 := hr.symm.trans e
    have := Res.ok.inj e'
    subst this
    refine ⟨by omega, fun x g1 g2 => ?_⟩
    by_cases hx : x ∈ n.childs
    · exact (e4 x hx).1
    · rw [e5 x (by rintro rfl; rw [n1] at g2; cases g2) hx, g2]; rfl
  | link i p =>
    obtain ⟨n, n1⟩ := hl
    obtain ⟨t2, e, s, _⟩ := setLinked_spec t i p n n1
    have e' : Res.ok t' = Res.ok t2 := hr.symm.trans e
    have := Res.ok.inj e'
    subst this
    refine ⟨by rw [s.2.2.2.1], fun x _ g2 => (s.2.2.2.2 x).2 g2⟩

/-- C36: node ids are never reused: once a node that existed has been removed, no later operation creates a node with its id. -/
theorem C36_ids_not_reused (t t' t'' : PTree) (h : THist PTree.init t) (h1 : THist t t') (h2 : THist t' t'') (x : Nat)
    (hx : ∃ n, t.tree x = some n) (hgone : t'.tree x = none) : t''.tree x = none := by
  have H := h.inv TInv.init
  have H1 := h1.inv H
  have hm : ∀ {a b : PTree}, THist a b → TInv a → a.nextId ≤ b.nextId ∧ ∀ x, x < a.nextId → a.tree x = none → b.tree x = none := by
    intro a b hab
    induction hab with
    | nil => intro _; exact ⟨Nat.le_refl _, fun _ _ h => h⟩
    | snoc o hp hl hr ih =>
      intro HA
      obtain ⟨i1, i2⟩ := ih HA
      obtain ⟨j1, j2⟩ := TOp.dead (hp.inv HA) o hl hr
      exact ⟨Nat.le_trans i1 j1, fun x hx hn => j2 x (Nat.lt_of_lt_of_le hx i1) (i2 x hx hn)⟩
  obtain ⟨n, hn⟩ := hx
  have hlt := H.fresh x n hn
  exact (hm h2 H1).2 x (Nat.lt_of_lt_of_le hlt (hm h1 H).1) hgone

/-! ### Tiling -/

/-- Every split node of the tree had at least two cells along each axis. -/
def SplitsOk (t : PTree) : Prop := ∀ id n, t.tree id = some n → n.isLeaf = false → Splittable n.coord ∧ NotFull n.coord

/-- The boxes of different roots do not overlap. -/
def RootsDisjoint (t : PTree) : Prop :=
  ∀ a b na nb p, t.roots a = true → t.roots b = true → t.tree a = some na → t.tree b = some nb → Cell na.coord p → Cell nb.coord p → a = b

theorem descend {t : PTree} (H : TInv t) (hs : SplitsOk t) (p : V3 Nat) : ∀ m id n, t.tree id = some n → t.nextId - id ≤ m → Cell n.coord p →
    ∃ l k, t.tree l = some k ∧ k.isLeaf = true ∧ Cell k.coord p := by
  intro m
  induction m with
  | zero => intro id n h hm; have := H.fresh id n h; omega
  | succ m ih =>
    intro id n h hm hc
    cases hl : n.isLeaf with
    | true => exact ⟨id, n, h, hl, hc⟩
    | false =>
      obtain ⟨s1, s2⟩ := hs id n h hl
      obtain ⟨i, ch, g1, g2, _⟩ := (C35_split_partition n.coord s1 s2 p).1 hc
      have hi : i < n.childs.length := by
        rw [(H.kids id n h hl).1, ← getSplit_length n.coord]
        exact (List.getElem?_eq_some_iff.1 g1).1
      obtain ⟨k, k1, _, k3, k4⟩ := H.down id n h hl i n.childs[i] (List.getElem?_eq_getElem hi)
      rw [g1, Option.some.injEq] at k4
      exact ih _ k k1 (by omega) (by rw [← k4]; exact g2)

theorem ascend {t : PTree} (H : TInv t) (hs : SplitsOk t) (p : V3 Nat) {id : Nat} {n q : PTNode} (h : t.tree id = some n)
    (hp : t.tree n.parent = some q) (hl : q.isLeaf = false) (hm : id ∈ q.childs) (hc : Cell n.coord p) : Cell q.coord p := by
  obtain ⟨i, hi⟩ := List.mem_iff_getElem?.1 hm
  obtain ⟨k, k1, _, _, k4⟩ := H.down _ q hp hl i id hi
  rw [h, Option.some.injEq] at k1
  subst k1
  obtain ⟨s1, s2⟩ := hs _ q hp hl
  exact (C35_split_partition q.coord s1 s2 p).2 _ (List.mem_iff_getElem?.2 ⟨i, k4⟩) hc

/-- `x` is `r` or a descendant of `r`. -/
inductive Under (t : PTree) : Nat → Nat → Prop
  | refl (r : Nat) : Under t r r
  | step {r x : Nat} {n q : PTNode} : t.tree x = some n → t.tree n.parent = some q → q.isLeaf = false → x ∈ q.childs →
      Under t r n.parent → Under t r x

theorem Under.first {t : PTree} {r x : Nat} (h : Under t r x) :
    r = x ∨ ∃ q c nc, t.tree r = some q ∧ q.isLeaf = false ∧ c ∈ q.childs ∧ t.tree c = some nc ∧ nc.parent = r ∧ Under t c x := by
  induction h with
  | refl => exact Or.inl rfl
  | step h1 h2 h3 h4 _ ih =>
    rename_i x' n q hu
    right
    rcases ih with he | ⟨q', c, nc, a1, a2, a3, a4, a5, a6⟩
    · exact ⟨q, x', n, by rw [he]; exact h2, h3, h4, h1, he.symm, Under.refl x'⟩
    · exact ⟨q', c, nc, a1, a2, a3, a4, a5, Under.step h1 h2 h3 h4 a6⟩

theorem Under.cell {t : PTree} (H : TInv t) (hs : SplitsOk t) (p : V3 Nat) {r x : Nat} (h : Under t r x) :
    ∀ n, t.tree x = some n → Cell n.coord p → ∃ k, t.tree r = some k ∧ Cell k.coord p := by
  induction h with
  | refl => intro n h hc; exact ⟨n, h, hc⟩
  | step h1 h2 h3 h4 _ ih =>
    intro n' h hc
    rw [h1, Option.some.injEq] at h
    subst h
    exact ih _ h2 (ascend H hs p h1 h2 h3 h4 hc)

theorem underRoot {t : PTree} (H : TInv t) : ∀ m id n, id ≤ m → t.tree id = some n → ∃ r, t.roots r = true ∧ Under t r id := by
  intro m
  induction m with
  | zero =>
    intro id n hm h
    rcases H.forest.parent id n h with ⟨a, b⟩ | ⟨_, b, _⟩
    · exact ⟨id, a, Under.refl id⟩
    · omega
  | succ m ih =>
    intro id n hm h
    rcases H.forest.parent id n h with ⟨a, b⟩ | ⟨_, b, q, q1, q2, q3⟩
    · exact ⟨id, a, Under.refl id⟩
    · obtain ⟨r, r1, r2⟩ := ih _ q (by omega) q1
      exact ⟨r, r1, Under.step h q1 q2 q3 r2⟩

theorem leaf_unique {t : PTree} (H : TInv t) (hs : SplitsOk t) (p : V3 Nat) {a b : Nat} {na nb : PTNode}
    (ha : t.tree a = some na) (hb : t.tree b = some nb) (la : na.isLeaf = true) (lb : nb.isLeaf = true) (ca : Cell na.coord p) (cb : Cell nb.coord p) :
    ∀ m r nr, t.tree r = some nr → t.nextId - r ≤ m → Under t r a → Under t r b → a = b := by
  intro m
  induction m with
  | zero => intro r nr h hm; have := H.fresh r nr h; omega
  | succ m ih =>
    intro r nr h hm ua ub
    rcases ua.first with rfl | ⟨q, c, nc, a1, a2, a3, a4, a5, a6⟩
    · rcases ub.first with h' | ⟨q, c, nc, a1, a2, _⟩
      · exact h'
      · rw [ha, Option.some.injEq] at a1
        subst a1
        rw [la] at a2; cases a2
    · rcases ub.first with rfl | ⟨q', c', nc', b1, b2, b3, b4, b5, b6⟩
      · rw [hb, Option.some.injEq] at a1
        subst a1
        rw [lb] at a2; cases a2
      · rw [a1, Option.some.injEq] at b1
        subst b1
        obtain ⟨k, k1, k2⟩ := a6.cell H hs p na ha ca
        obtain ⟨k', k1', k2'⟩ := b6.cell H hs p nb hb cb
        obtain ⟨i, hi⟩ := List.mem_iff_getElem?.1 a3
        obtain ⟨j, hj⟩ := List.mem_iff_getElem?.1 b3
        obtain ⟨w, w1, w2, w3, w4⟩ := H.down r q a1 a2 i c hi
        obtain ⟨v, v1, v2, v3, v4⟩ := H.down r q a1 a2 j c' hj
        rw [k1, Option.some.injEq] at w1
        rw [k1', Option.some.injEq] at v1
        subst w1 v1
        obtain ⟨s1, s2⟩ := hs r q a1 a2
        obtain ⟨e, _, _, _, e3⟩ := (C35_split_partition q.coord s1 s2 p).1 ((C35_split_partition q.coord s1 s2 p).2 _ (List.mem_iff_getElem?.2 ⟨i, w4⟩) k2)
        have hij : i = j := (e3 i _ w4 k2).trans (e3 j _ v4 k2').symm
        subst hij
        rw [hi, Option.some.injEq] at hj
        subst hj
        have := H.fresh c _ k1
        exact ih c _ k1 (by omega) a6 b6

/-- C36: whatever the history, if the root boxes do not overlap and every node split had at least two cells along each axis, a cell lies in
a root box iff it lies in a leaf box, and then in exactly one leaf. -/
theorem C36_leaves_tile_roots (t : PTree) (h : THist PTree.init t) (hr : RootsDisjoint t) (hs : SplitsOk t) (p : V3 Nat) :
    ((∃ r n, t.roots r = true ∧ t.tree r = some n ∧ Cell n.coord p) ↔ ∃ l n, t.leafKey l = true ∧ t.tree l = some n ∧ Cell n.coord p) ∧
    ∀ a b na nb, t.leafKey a = true → t.leafKey b = true → t.tree a = some na → t.tree b = some nb →
      Cell na.coord p → Cell nb.coord p → a = b := by
  have H := h.inv TInv.init
  have hleaf : ∀ {a n}, t.leafKey a = true → t.tree a = some n → n.isLeaf = true := by
    intro a n h1 h2
    obtain ⟨k, k1, k2⟩ := (H.leaf a).1 h1
    rw [h2, Option.some.injEq] at k1
    subst k1; exact k2
  refine ⟨⟨?_, ?_⟩, ?_⟩
  · rintro ⟨r, n, _, h2, h3⟩
    obtain ⟨l, k, k1, k2, k3⟩ := descend H hs p _ r n h2 (Nat.le_refl _) h3
    exact ⟨l, k, (H.leaf l).2 ⟨k, k1, k2⟩, k1, k3⟩
  · rintro ⟨l, n, _, h2, h3⟩
    obtain ⟨r, r1, r2⟩ := underRoot H l l n (Nat.le_refl _) h2
    obtain ⟨k, k1, k2⟩ := r2.cell H hs p n h2 h3
    exact ⟨r, k, r1, k1, k2⟩
  · intro a b na nb la lb ha hb ca cb
    obtain ⟨r, r1, r2⟩ := underRoot H a a na (Nat.le_refl _) ha
    obtain ⟨r', r1', r2'⟩ := underRoot H b b nb (Nat.le_refl _) hb
    obtain ⟨k, k1, k2⟩ := r2.cell H hs p na ha ca
    obtain ⟨k', k1', k2'⟩ := r2'.cell H hs p nb hb cb
    have := hr r r' k k' p r1 r1' k1 k1' k2 k2'
    subst this
    exact leaf_unique H hs p ha hb (hleaf la ha) (hleaf lb hb) ca cb _ r k k1 (Nat.le_refl _) r2 r2'

/-! ### Load values and requests -/

/-- Specification of a state in which the scheduler computes the loads: each leaf is linked to a listed patch with a `u64` load, the other
nodes are linked to none. -/
def Linked (t : PTree) (loads : Nat → Option Nat) : Prop :=
  (∀ x n, t.tree x = some n → n.isLeaf = true → n.linked ≠ u64max ∧ ∃ l, loads n.linked = some l ∧ l < 2 ^ 64) ∧
  ∀ x n, t.tree x = some n → n.isLeaf = false → n.linked = u64max

/-- `ls` enumerates the set `f`. -/
def Enumerates (ls : List Nat) (f : Nat → Bool) : Prop := ∀ x, x ∈ ls ↔ f x = true

theorem load_reduction_inv (t : PTree) (H : TInv t) (loads : Nat → Option Nat) (hl : Linked t loads) (ls ps : List Nat)
    (h1 : Enumerates ls t.leafKey) (h2 : Enumerates ps t.polk) :
    ∃ t', t.partialReduction loads ls ps = .ok t' ∧ t'.leafKey = t.leafKey ∧ t'.polk = t.polk ∧ t'.roots = t.roots ∧ t'.nextId = t.nextId ∧
      (∀ x n, t.tree x = some n → n.isLeaf = true → ∃ l, loads n.linked = some l ∧ t'.tree x = some { n with load := l }) ∧
      (∀ x n, t.tree x = some n → t.polk x = true → t'.tree x = some { n with load := sumLoads (n.childs.map t'.loadOf) }) ∧
      ∀ x, t.leafKey x = false → t.polk x = false → t'.tree x = t.tree x := by
  have hub := u64max_big
  obtain ⟨t1, e0, e1, e2, e3, e4, e5⟩ := leafPass loads ls t (by
    intro x hx
    obtain ⟨n, n1, n2⟩ := (H.leaf x).1 ((h1 x).1 hx)
    obtain ⟨a, l, b, _⟩ := hl.1 x n n1 n2
    exact ⟨n, l, n1, a, b⟩)
  have hpl : ∀ x, t.polk x = true → x ∉ ls := by
    intro x hx hm
    obtain ⟨n, n1, n2⟩ := (H.leaf x).1 ((h1 x).1 hm)
    obtain ⟨k, k1, k2⟩ := (H.polk x).1 hx
    rw [n1, Option.some.injEq] at k1
    subst k1
    rw [((H.flag x n n1).1 k2).1] at n2; cases n2
  obtain ⟨t2, f0, f1, f2, f3, f4, f5⟩ := polkPass loads ps t1 (by
    intro x hx
    have hx' := (h2 x).1 hx
    obtain ⟨n, n1, n2⟩ := (H.polk x).1 hx'
    obtain ⟨m1, m2⟩ := (H.flag x n n1).1 n2
    refine ⟨n, ?_, hl.2 x n n1 m1, ?_, ?_⟩
    · rw [e5 x, n1, Option.map_some, if_neg (hpl x hx')]
    · intro hh
      have hg : n.childs[0]? = some u64max := by rw [← List.head?_eq_getElem?]; exact hh
      obtain ⟨k, k1, _⟩ := H.down x n n1 m1 0 u64max hg
      have := H.fresh _ _ k1
      have := H.bound
      omega
    · intro c hc
      obtain ⟨k, k1, k2⟩ := m2 c hc
      refine ⟨?_, _, by rw [e5 c, k1, Option.map_some]⟩
      intro hm
      exact hpl c ((h2 c).1 hm) ((h1 c).2 ((H.leaf c).2 ⟨k, k1, k2⟩)))
  have hleafv : ∀ x n, t.tree x = some n → n.isLeaf = true → ∃ l, loads n.linked = some l ∧ t2.tree x = some { n with load := l } ∧
      t1.tree x = some { n with load := l } := by
    intro x n n1 n2
    obtain ⟨_, l, b, hlt⟩ := hl.1 x n n1 n2
    have hm : x ∈ ls := (h1 x).2 ((H.leaf x).2 ⟨n, n1, n2⟩)
    have hnp : x ∉ ps := fun hp => hpl x ((h2 x).1 hp) hm
    have hu : u64add 0 l = l := by unfold u64add; omega
    have g : t1.tree x = some { n with load := l } := by
      rw [e5 x, n1, Option.map_some, if_pos hm, b, Option.getD_some, hu]
    exact ⟨l, b, by rw [f5 x, g, Option.map_some, if_neg hnp], g⟩
  refine ⟨t2, ?_, f1.trans e1, f2.trans e2, f3.trans e3, f4.trans e4, ?_, ?_, ?_⟩
  · show (PTree.updateAll loads ls t).bind _ = _
    rw [e0]; exact f0
  · intro x n n1 n2
    obtain ⟨l, g1, g2, _⟩ := hleafv x n n1 n2
    exact ⟨l, g1, g2⟩
  · intro x n n1 n2
    have g : t1.tree x = some n := by rw [e5 x, n1, Option.map_some, if_neg (hpl x n2)]
    rw [f5 x, g, Option.map_some, if_pos ((h2 x).2 n2)]
    obtain ⟨k, k1, k2⟩ := (H.polk x).1 n2
    rw [n1, Option.some.injEq] at k1
    subst k1
    obtain ⟨_, m2⟩ := (H.flag x n n1).1 k2
    rw [List.map_congr_left (f := t1.loadOf) (g := t2.loadOf)]
    intro c hc
    obtain ⟨k, k1, k3⟩ := m2 c hc
    obtain ⟨l, _, g2, g3⟩ := hleafv c k k1 k3
    unfold PTree.loadOf
    rw [g2, g3]
  · intro x g1 g2
    have a1 : x ∉ ls := fun hm => by rw [(h1 x).1 hm] at g1; cases g1
    have a2 : x ∉ ps := fun hm => by rw [(h2 x).1 hm] at g2; cases g2
    have b1 : t1.tree x = t.tree x := by rw [e5 x, map_id_opt _ _ (fun _ _ => by rw [if_neg a1])]
    rw [f5 x, map_id_opt _ _ (fun _ _ => by rw [if_neg a2]), b1]

/-- C36: the load reduction, for every iteration order of the two sets: it does not fail; a leaf gets the load of its patch; a parent of
only leaves gets the sum of the loads of the patches of its eight children, modulo 2^64 (or 2^64-1 if one of them is 2^64-1); and nothing
else changes. -/
theorem C36_load_reduction (t : PTree) (h : THist PTree.init t) (loads : Nat → Option Nat) (hl : Linked t loads) (ls ps : List Nat)
    (h1 : Enumerates ls t.leafKey) (h2 : Enumerates ps t.polk) :
    ∃ t', t.partialReduction loads ls ps = .ok t' ∧ t'.leafKey = t.leafKey ∧ t'.polk = t.polk ∧ t'.roots = t.roots ∧ t'.nextId = t.nextId ∧
      (∀ x n, t.tree x = some n → n.isLeaf = true → ∃ l, loads n.linked = some l ∧ t'.tree x = some { n with load := l }) ∧
      (∀ x n, t.tree x = some n → t.polk x = true → t'.tree x = some { n with load := sumLoads (n.childs.map t'.loadOf) }) ∧
      ∀ x, t.leafKey x = false → t.polk x = false → t'.tree x = t.tree x :=
  load_reduction_inv t (h.inv TInv.init) loads hl ls ps h1 h2

theorem le_sum_of_mem {l : List Nat} {a : Nat} (h : a ∈ l) : a ≤ l.sum := by
  induction l with
  | nil => cases h
  | cons b r ih =>
    rw [List.sum_cons]
    rcases List.mem_cons.1 h with rfl | h
    · omega
    · have := ih h; omega

theorem requests_disjoint_inv (t : PTree) (H : TInv t) (loads : Nat → Option Nat) (hl : Linked t loads) (ls ps : List Nat)
    (h1 : Enumerates ls t.leafKey) (h2 : Enumerates ps t.polk) (t' : PTree) (ht : t.partialReduction loads ls ps = .ok t')
    (crit_split crit_merge : Nat) (hcrit : crit_merge ≤ crit_split) (x : Nat) (n : PTNode) (hx : t'.tree x = some n)
    (hsum : (n.childs.map t'.loadOf).sum < 2 ^ 64) (hm : t'.mergeRequest crit_merge x = true) :
    ∀ c ∈ n.childs, t'.splitRequest crit_split c = false := by
  obtain ⟨t2, e, e1, e2, _, _, e5, e6, e7⟩ := load_reduction_inv t H loads hl ls ps h1 h2
  rw [ht] at e
  have := Res.ok.inj e
  subst this
  unfold PTree.mergeRequest at hm
  rw [Bool.and_eq_true, hx] at hm
  obtain ⟨m1, m2⟩ := hm
  have m2 := of_decide_eq_true m2
  rw [e2] at m1
  obtain ⟨o, o1, _⟩ := (H.polk x).1 m1
  have hv := e6 x o o1 m1
  rw [hx, Option.some.injEq] at hv
  subst hv
  intro c hc
  cases hs : t'.splitRequest crit_split c with
  | false => rfl
  | true =>
    exfalso
    unfold PTree.splitRequest at hs
    rw [Bool.and_eq_true] at hs
    obtain ⟨s1, s2⟩ := hs
    have hmem : t'.loadOf c ∈ o.childs.map t'.loadOf := List.mem_map_of_mem hc
    have hle := le_sum_of_mem hmem
    have hgt : crit_split < t'.loadOf c := by
      unfold PTree.loadOf
      revert s2
      cases t'.tree c with
      | none => intro h; cases h
      | some k => intro h; exact of_decide_eq_true h
    have hnm : u64max ∉ o.childs.map t'.loadOf ∨ u64max ∈ o.childs.map t'.loadOf := by
      by_cases hh : u64max ∈ o.childs.map t'.loadOf
      · exact Or.inr hh
      · exact Or.inl hh
    have hu : u64max = 2 ^ 64 - 1 := rfl
    have hsum' : (o.childs.map t'.loadOf).sum < 2 ^ 64 := hsum
    rcases hnm with hh | hh
    · have : sumLoads (o.childs.map t'.loadOf) = (o.childs.map t'.loadOf).sum := by
        unfold sumLoads; rw [if_neg hh, Nat.mod_eq_of_lt hsum]
      simp only [this] at m2
      omega
    · have : sumLoads (o.childs.map t'.loadOf) = u64max := by unfold sumLoads; rw [if_pos hh]
      simp only [this] at m2
      omega

/-- C37 (requests): when the merge threshold is at most the split threshold and the loads of the patches do not overflow `u64` when summed,
a node whose merge is requested has no child whose split is requested in the same step. -/
theorem C37_requests_disjoint (t : PTree) (h : THist PTree.init t) (loads : Nat → Option Nat) (hl : Linked t loads) (ls ps : List Nat)
    (h1 : Enumerates ls t.leafKey) (h2 : Enumerates ps t.polk) (t' : PTree) (ht : t.partialReduction loads ls ps = .ok t')
    (crit_split crit_merge : Nat) (hcrit : crit_merge ≤ crit_split) (x : Nat) (n : PTNode) (hx : t'.tree x = some n)
    (hsum : (n.childs.map t'.loadOf).sum < 2 ^ 64) (hm : t'.mergeRequest crit_merge x = true) :
    ∀ c ∈ n.childs, t'.splitRequest crit_split c = false :=
  requests_disjoint_inv t (h.inv TInv.init) loads hl ls ps h1 h2 t' ht crit_split crit_merge hcrit x n hx hsum hm

theorem forall2_exists_left {A B : Type} {R : A → B → Prop} {as : List A} {bs : List B} (h : List.Forall₂ R as bs) : ∀ a ∈ as, ∃ b ∈ bs, R a b := by
  induction h with
  | nil => intro a ha; exact absurd ha List.not_mem_nil
  | cons h _ ih =>
    intro a ha
    rcases List.mem_cons.1 ha with rfl | ha
    · exact ⟨_, List.mem_cons_self, h⟩
    · obtain ⟨b, b1, b2⟩ := ih a ha
      exact ⟨b, List.mem_cons_of_mem _ b1, b2⟩

/-- C37 (requests, exactly): after the load reduction, a split is requested for exactly the leaves whose patch has a load strictly above the threshold, and a merge for
exactly the nodes whose children are all leaves and whose patches have a total load strictly below the threshold (modulo 2^64; a load 2^64-1 counts as infinite). -/
theorem C37_requests_exact (t : PTree) (h : THist PTree.init t) (loads : Nat → Option Nat) (hl : Linked t loads) (ls ps : List Nat)
    (h1 : Enumerates ls t.leafKey) (h2 : Enumerates ps t.polk) (t' : PTree) (ht : t.partialReduction loads ls ps = .ok t') (crit x : Nat) :
    (t'.splitRequest crit x = true ↔ ∃ n l, t.tree x = some n ∧ n.isLeaf = true ∧ loads n.linked = some l ∧ crit < l) ∧
    (t'.mergeRequest crit x = true ↔ ∃ n ll, t.tree x = some n ∧ n.isLeaf = false ∧
      List.Forall₂ (fun c l => ∃ k, t.tree c = some k ∧ k.isLeaf = true ∧ loads k.linked = some l) n.childs ll ∧
      (if u64max ∈ ll then u64max else ll.sum % 2 ^ 64) < crit) := by
  have H := h.inv TInv.init
  obtain ⟨t2, e, e1, e2, _, _, e5, e6, e7⟩ := load_reduction_inv t H loads hl ls ps h1 h2
  rw [ht, Res.ok.injEq] at e
  subst e
  constructor
  · unfold PTree.splitRequest
    rw [Bool.and_eq_true, e1]
    constructor
    · rintro ⟨a, b⟩
      obtain ⟨n, n1, n2⟩ := (H.leaf x).1 a
      obtain ⟨l, l1, l2⟩ := e5 x n n1 n2
      rw [l2] at b
      exact ⟨n, l, n1, n2, l1, of_decide_eq_true b⟩
    · rintro ⟨n, l, n1, n2, l1, hc⟩
      obtain ⟨l', l1', l2⟩ := e5 x n n1 n2
      rw [l1, Option.some.injEq] at l1'
      subst l1'
      rw [l2]
      exact ⟨(H.leaf x).2 ⟨n, n1, n2⟩, decide_eq_true hc⟩
  · have key : ∀ cs ll, List.Forall₂ (fun c l => ∃ k, t.tree c = some k ∧ k.isLeaf = true ∧ loads k.linked = some l) cs ll → cs.map t'.loadOf = ll := by
      intro cs ll hf
      induction hf with
      | nil => rfl
      | cons hc _ ih =>
        obtain ⟨k, k1, k2, k3⟩ := hc
        obtain ⟨l, l1, l2⟩ := e5 _ k k1 k2
        rw [k3, Option.some.injEq] at l1
        rw [List.map_cons, ih, l1]
        unfold PTree.loadOf
        rw [l2]
    unfold PTree.mergeRequest
    rw [Bool.and_eq_true, e2]
    constructor
    · rintro ⟨a, b⟩
      obtain ⟨n, n1, n2⟩ := (H.polk x).1 a
      obtain ⟨n3, n4⟩ := (H.flag x n n1).1 n2
      rw [e6 x n n1 a] at b
      have hf : ∀ cs : List Nat, (∀ c ∈ cs, ∃ k, t.tree c = some k ∧ k.isLeaf = true) →
          ∃ ll, List.Forall₂ (fun c l => ∃ k, t.tree c = some k ∧ k.isLeaf = true ∧ loads k.linked = some l) cs ll := by
        intro cs
        induction cs with
        | nil => intro _; exact ⟨[], List.Forall₂.nil⟩
        | cons c cs ih =>
          intro h
          obtain ⟨ll, hll⟩ := ih fun d hd => h d (List.mem_cons_of_mem _ hd)
          obtain ⟨k, k1, k2⟩ := h c List.mem_cons_self
          obtain ⟨l, l1, _⟩ := e5 c k k1 k2
          exact ⟨l :: ll, List.Forall₂.cons ⟨k, k1, k2, l1⟩ hll⟩
      obtain ⟨ll, hll⟩ := hf n.childs n4
      have b := of_decide_eq_true b
      rw [key _ _ hll] at b
      exact ⟨n, ll, n1, n3, hll, b⟩
    · rintro ⟨n, ll, n1, n2, n3, hc⟩
      have n4 : n.allLeafs = true := by
        refine (H.flag x n n1).2 ⟨n2, fun c hc => ?_⟩
        obtain ⟨l, _, k, k1, k2, _⟩ := forall2_exists_left n3 c hc
        exact ⟨k, k1, k2⟩
      have a : t.polk x = true := (H.polk x).2 ⟨n, n1, n4⟩
      rw [e6 x n n1 a]
      refine ⟨a, decide_eq_true ?_⟩
      show sumLoads (n.childs.map t'.loadOf) < crit
      rw [key _ _ n3]
      exact hc

/-! ### A concrete history -/

/-- Decision procedure for `TOp.legal`. -/
def TOp.check : TOp → PTree → Bool
  | .root _ _, t => decide (t.nextId + 1 ≤ 2 ^ 32)
  | .split i _, t => t.leafKey i && decide (t.nextId + 8 ≤ 2 ^ 32)
  | .merge i, t => t.polk i
  | .link i _, t => (t.tree i).isSome

/-- Executes a history, checking legality. -/
def tRun : List TOp → PTree → Option PTree
  | [], t => some t
  | o :: r, t => if o.check t then (match o.run t with | .ok t' => tRun r t' | _ => none) else none

theorem tRun_hist : ∀ (l : List TOp) (t0 t t' : PTree), THist t0 t → tRun l t = some t' → THist t0 t' := by
  intro l
  induction l with
  | nil => intro t0 t t' h e; rw [tRun, Option.some.injEq] at e; subst e; exact h
  | cons o r ih =>
    intro t0 t t' h e
    unfold tRun at e
    by_cases hok : o.check t = true
    · rw [if_pos hok] at e
      cases h1 : o.run t with
      | ok t1 =>
        rw [h1] at e
        refine ih t0 t1 t' (THist.snoc o h ?_ h1) e
        cases o with
        | root p c => exact of_decide_eq_true (p := t.nextId + 1 ≤ 2 ^ 32) hok
        | split i j => rw [TOp.check, Bool.and_eq_true] at hok; exact ⟨hok.1, of_decide_eq_true hok.2⟩
        | merge i => exact hok
        | link i p => exact Option.isSome_iff_exists.1 hok
      | throws => rw [h1] at e; cases e
      | ub => rw [h1] at e; cases e
    · rw [if_neg hok] at e; cases e

/-- Two roots side by side; the first is split, its second child too, which is then merged again; then the last child is split. -/
def exHist : List TOp :=
  [.root 0 ⟨⟨0, 0, 0⟩, ⟨7, 7, 7⟩⟩, .root 1 ⟨⟨8, 0, 0⟩, ⟨15, 7, 7⟩⟩, .split 0 99, .split 3 5, .link 10 4, .merge 3, .split 9 0]

example : ∃ t, THist PTree.init t ∧ t.nextId = 26 ∧ (List.range 30).filter t.leafKey = [1, 2, 3, 4, 5, 6, 7, 8, 18, 19, 20, 21, 22, 23, 24, 25] ∧
    (List.range 30).filter t.polk = [9] ∧ (List.range 30).filter t.roots = [0, 1] ∧ (t.tree 12).isNone ∧
    (t.tree 25).map (·.coord) = some ⟨⟨6, 6, 6⟩, ⟨7, 7, 7⟩⟩ := by
  have h : (tRun exHist PTree.init).isSome := by decide +kernel
  obtain ⟨t, ht⟩ := Option.isSome_iff_exists.1 h
  refine ⟨t, tRun_hist exHist _ _ _ (THist.nil _) ht, ?_⟩
  have e : t = (tRun exHist PTree.init).getD PTree.init := by rw [ht]; rfl
  rw [e]
  decide +kernel

/-- One root split, with the links the scheduler sets. -/
def exHist2 : List TOp :=
  [.root 0 ⟨⟨0, 0, 0⟩, ⟨7, 7, 7⟩⟩, .split 0 99, .link 0 u64max, .link 1 0, .link 2 1, .link 3 2, .link 4 3, .link 5 4, .link 6 5, .link 7 6, .link 8 7]

example : ∃ t loads, THist PTree.init t ∧ Linked t loads ∧ Enumerates [8, 7, 6, 5, 4, 3, 2, 1] t.leafKey ∧ Enumerates [0] t.polk ∧
    (∃ t', t.partialReduction loads [8, 7, 6, 5, 4, 3, 2, 1] [0] = .ok t' ∧ t'.loadOf 0 = 36 ∧ t'.mergeRequest 40 0 = true ∧
      t'.splitRequest 7 8 = true ∧ t'.splitRequest 7 7 = false) := by
  have h : (tRun exHist2 PTree.init).isSome := by decide +kernel
  obtain ⟨t, ht⟩ := Option.isSome_iff_exists.1 h
  have hh := tRun_hist exHist2 _ _ _ (THist.nil _) ht
  have H := hh.inv TInv.init
  have e : t = (tRun exHist2 PTree.init).getD PTree.init := by rw [ht]; rfl
  have hN : t.nextId = 9 := by rw [e]; decide +kernel
  have hlt : ∀ x n, t.tree x = some n → x < 9 := fun x n hx => by have := H.fresh x n hx; omega
  refine ⟨t, fun p => some (p + 1), hh, ⟨?_, ?_⟩, ?_, ?_, ?_⟩
  · have hk : ∀ x < 9, ∀ n ∈ t.tree x, n.isLeaf = true → n.linked ≠ u64max ∧ n.linked < 10 := by rw [e]; decide +kernel
    intro x n h1 h2
    obtain ⟨a, b⟩ := hk x (hlt x n h1) n h1 h2
    exact ⟨a, _, rfl, by omega⟩
  · have hk : ∀ x < 9, ∀ n ∈ t.tree x, n.isLeaf = false → n.linked = u64max := by rw [e]; decide +kernel
    intro x n h1 h2
    exact hk x (hlt x n h1) n h1 h2
  · have hk : ∀ x < 9, (x ∈ [8, 7, 6, 5, 4, 3, 2, 1] ↔ t.leafKey x = true) := by rw [e]; decide +kernel
    intro x
    by_cases hx : x < 9
    · exact hk x hx
    · constructor
      · intro hm; simp at hm; omega
      · intro hm
        obtain ⟨n, n1, _⟩ := (H.leaf x).1 hm
        exact absurd (hlt x n n1) hx
  · have hk : ∀ x < 9, (x ∈ [0] ↔ t.polk x = true) := by rw [e]; decide +kernel
    intro x
    by_cases hx : x < 9
    · exact hk x hx
    · constructor
      · intro hm; simp at hm; omega
      · intro hm
        obtain ⟨n, n1, _⟩ := (H.polk x).1 hm
        exact absurd (hlt x n n1) hx
  · let r := t.partialReduction (fun p => some (p + 1)) [8, 7, 6, 5, 4, 3, 2, 1] [0]
    have hr : (match r with | .ok t' => t'.loadOf 0 == 36 && t'.mergeRequest 40 0 && t'.splitRequest 7 8 && !t'.splitRequest 7 7 | _ => false) = true := by
      show (match t.partialReduction (fun p => some (p + 1)) [8, 7, 6, 5, 4, 3, 2, 1] [0] with
        | .ok t' => t'.loadOf 0 == 36 && t'.mergeRequest 40 0 && t'.splitRequest 7 8 && !t'.splitRequest 7 7 | _ => false) = true
      rw [e]; decide +kernel
    cases hrr : r with
    | ok t' =>
      rw [hrr] at hr
      simp only [Bool.and_eq_true, beq_iff_eq, Bool.not_eq_true'] at hr
      exact ⟨t', hrr, hr.1.1.1, hr.1.1.2, hr.1.2, hr.2⟩
    | throws => rw [hrr] at hr; cases hr
    | ub => rw [hrr] at hr; cases hr

end Shamrock
