import Verif.Model.SerialTree
import Verif.Props.PatchTree
import Verif.Props.Split
/-! Lemmas on the serialised patch tree. -/
namespace Shamrock

/-- Levels and children fields of a patch tree. -/
structure TLev (t : PTree) : Prop where
  leaf : ∀ id n, t.tree id = some n → n.isLeaf = true → n.childs.head? = some u64max
  rootLevel : ∀ id n, t.tree id = some n → n.parent = u64max → n.level = 0
  level : ∀ id n q, t.tree id = some n → n.parent ≠ u64max → t.tree n.parent = some q → n.level = q.level + 1
  le : ∀ id n, t.tree id = some n → n.level ≤ id

theorem TLev.init : TLev PTree.init := by constructor <;> simp [PTree.init]

theorem clearIf_level (p x : Nat) (n : PTNode) : (clearIf p x n).level = n.level := by unfold clearIf; split <;> rfl
theorem markIf_level (b : Bool) (p x : Nat) (n : PTNode) : (markIf b p x n).level = n.level := by unfold markIf; split <;> rfl

theorem fresh_isLeaf (c : PatchCoord) (l p k : Nat) : (PTNode.fresh c l p k).isLeaf = true := rfl
theorem fresh_level (c : PatchCoord) (l p k : Nat) : (PTNode.fresh c l p k).level = l := rfl
theorem fresh_parent (c : PatchCoord) (l p k : Nat) : (PTNode.fresh c l p k).parent = p := rfl
theorem fresh_childs (c : PatchCoord) (l p k : Nat) : (PTNode.fresh c l p k).childs = u64max :: List.replicate 7 0 := rfl

attribute [local irreducible] u64max getSplit PTNode.fresh

theorem TLev.root {t : PTree} (H : TInv t) (L : TLev t) (pid : Nat) (c : PatchCoord) (hN : t.nextId + 1 ≤ 2 ^ 32) : TLev (t.insertRoot pid c) := by
  have hub := u64max_big
  have hg : ∀ x, (t.insertRoot pid c).tree x = if x = t.nextId then some (PTNode.fresh c 0 u64max (pid % 2 ^ 32)) else t.tree x := fun _ => rfl
  have hcases : ∀ x n, (t.insertRoot pid c).tree x = some n →
      (x = t.nextId ∧ n = PTNode.fresh c 0 u64max (pid % 2 ^ 32)) ∨ (x ≠ t.nextId ∧ t.tree x = some n) := by
    intro x n h
    rw [hg] at h
    by_cases hx : x = t.nextId
    · rw [if_pos hx, Option.some.injEq] at h; exact Or.inl ⟨hx, h.symm⟩
    · rw [if_neg hx] at h; exact Or.inr ⟨hx, h⟩
  refine ⟨fun x n h hl => ?_, fun x n h hp => ?_, fun x n q h hp hq => ?_, fun x n h => ?_⟩
  · rcases hcases x n h with ⟨_, rfl⟩ | ⟨_, h⟩
    · rw [fresh_childs]; rfl
    · exact L.leaf x n h hl
  · rcases hcases x n h with ⟨_, rfl⟩ | ⟨_, h⟩
    · exact fresh_level _ _ _ _
    · exact L.rootLevel x n h hp
  · rcases hcases x n h with ⟨_, rfl⟩ | ⟨_, h⟩
    · rw [fresh_parent] at hp; exact absurd rfl hp
    · obtain ⟨q', h1, -, -⟩ := H.up x n h hp
      rcases hcases _ q hq with ⟨e, _⟩ | ⟨_, hq⟩
      · have := H.fresh _ _ h1; omega
      · exact L.level x n q h hp hq
  · rcases hcases x n h with ⟨_, rfl⟩ | ⟨_, h⟩
    · rw [fresh_level]; omega
    · exact L.le x n h

theorem TLev.split {t : PTree} (H : TInv t) (L : TLev t) (id junk : Nat) (curr : PTNode) (hc : t.tree id = some curr)
    (hN : t.nextId + 8 ≤ 2 ^ 32) (t' : PTree) (ht : t.splitNode id junk = .ok t') : TLev t' := by
  obtain ⟨t2, e0, hnext, hroots, hidn, hnew, hold, hleaf, hpolk⟩ := split_spec t H id junk curr hc hN
  rw [ht] at e0
  have e0 := Res.ok.inj e0
  subst e0
  have hid := H.fresh id curr hc
  have hub := u64max_big
  have hlv := L.le id curr hc
  have hcases : ∀ x n, t'.tree x = some n →
      (x = id ∧ n = { curr with isLeaf := false, allLeafs := true, childs := List.range' t.nextId 8 }) ∨
      (∃ i c, i < 8 ∧ x = t.nextId + i ∧ n = PTNode.fresh c (curr.level + 1) id junk) ∨
      (x ≠ id ∧ x < t.nextId ∧ ∃ o, t.tree x = some o ∧ n = clearIf curr.parent x o) := by
    intro x n hx
    by_cases h1 : x = id
    · subst h1
      rw [hidn, Option.some.injEq] at hx
      exact Or.inl ⟨rfl, hx.symm⟩
    · by_cases h2 : t.nextId ≤ x ∧ x < t.nextId + 8
      · obtain ⟨c, _, hc2⟩ := hnew (x - t.nextId) (by omega)
        rw [show t.nextId + (x - t.nextId) = x by omega, hx, Option.some.injEq, Nat.mod_eq_of_lt (by omega)] at hc2
        exact Or.inr (Or.inl ⟨x - t.nextId, c, by omega, by omega, hc2⟩)
      · rw [hold x h1 h2] at hx
        cases ho : t.tree x with
        | none => rw [ho] at hx; cases hx
        | some o =>
          rw [ho, Option.map_some, Option.some.injEq] at hx
          exact Or.inr (Or.inr ⟨h1, H.fresh x o ho, o, rfl, hx.symm⟩)
  refine ⟨fun x n h hl => ?_, fun x n h hp => ?_, fun x n q h hp hq => ?_, fun x n h => ?_⟩
  · rcases hcases x n h with ⟨_, rfl⟩ | ⟨i, c, _, _, rfl⟩ | ⟨_, _, o, ho, rfl⟩
    · cases hl
    · rw [fresh_childs]; rfl
    · rw [clearIf_isLeaf] at hl; rw [clearIf_childs]; exact L.leaf x o ho hl
  · rcases hcases x n h with ⟨rfl, rfl⟩ | ⟨i, c, _, _, rfl⟩ | ⟨_, _, o, ho, rfl⟩
    · exact L.rootLevel x curr hc hp
    · rw [fresh_parent] at hp; omega
    · rw [clearIf_parent] at hp; rw [clearIf_level]; exact L.rootLevel x o ho hp
  · have hql : ∀ y q, t'.tree y = some q → y < t.nextId → ∃ o, t.tree y = some o ∧ q.level = o.level := by
      intro y q hq hy
      rcases hcases y q hq with ⟨rfl, rfl⟩ | ⟨i, c, _, _, rfl⟩ | ⟨_, _, o, ho, rfl⟩
      · exact ⟨curr, hc, rfl⟩
      · omega
      · exact ⟨o, ho, clearIf_level _ _ _⟩
    have hold' : ∀ o, t.tree x = some o → n.parent = o.parent → n.level = o.level → n.level = q.level + 1 := by
      intro o ho e1 e2
      obtain ⟨p', p1, -, -⟩ := H.up x o ho (by rw [← e1]; exact hp)
      obtain ⟨o', o1, o2⟩ := hql _ q hq (by rw [e1]; exact H.fresh _ _ p1)
      rw [e2, o2]
      exact L.level x o o' ho (by rw [← e1]; exact hp) (by rw [← e1]; exact o1)
    rcases hcases x n h with ⟨rfl, rfl⟩ | ⟨i, c, _, _, rfl⟩ | ⟨_, _, o, ho, rfl⟩
    · exact hold' curr hc rfl rfl
    · rw [fresh_parent] at hq
      rw [hidn, Option.some.injEq] at hq
      rw [← hq, fresh_level]
    · exact hold' o ho (clearIf_parent _ _ _) (clearIf_level _ _ _)
  · rcases hcases x n h with ⟨rfl, rfl⟩ | ⟨i, c, _, _, rfl⟩ | ⟨_, _, o, ho, rfl⟩
    · exact hlv
    · rw [fresh_level]; omega
    · rw [clearIf_level]; exact L.le x o ho

theorem TLev.merge {t : PTree} (H : TInv t) (L : TLev t) (id : Nat) (pn : PTNode) (hc : t.tree id = some pn) (ha : pn.allLeafs = true)
    (t' : PTree) (ht : t.mergeNode id = .ok t') : TLev t' := by
  obtain ⟨t2, b, e0, hnext, hroots, hidn, hch, hold, hleaf, hpolk, hbr, hbp, hpc, hpi⟩ := merge_spec t H id pn hc ha
  rw [ht] at e0
  have e0 := Res.ok.inj e0
  subst e0
  have hcases : ∀ x n, t'.tree x = some n → (x = id ∧ n = pn.merged) ∨
      (x ≠ id ∧ x ∉ pn.childs ∧ ∃ o, t.tree x = some o ∧ n = markIf b pn.parent x o) := by
    intro x n hx
    by_cases h1 : x = id
    · subst h1
      rw [hidn, Option.some.injEq] at hx
      exact Or.inl ⟨rfl, hx.symm⟩
    · by_cases h2 : x ∈ pn.childs
      · rw [(hch x h2).1] at hx; cases hx
      · rw [hold x h1 h2] at hx
        cases ho : t.tree x with
        | none => rw [ho] at hx; cases hx
        | some o =>
          rw [ho, Option.map_some, Option.some.injEq] at hx
          exact Or.inr ⟨h1, h2, o, rfl, hx.symm⟩
  have hback : ∀ x n, t'.tree x = some n → ∃ o, t.tree x = some o ∧ n.parent = o.parent ∧ n.level = o.level := by
    intro x n h
    rcases hcases x n h with ⟨rfl, rfl⟩ | ⟨_, _, o, ho, rfl⟩
    · exact ⟨pn, hc, rfl, rfl⟩
    · exact ⟨o, ho, markIf_parent _ _ _ _, markIf_level _ _ _ _⟩
  refine ⟨fun x n h hl => ?_, fun x n h hp => ?_, fun x n q h hp hq => ?_, fun x n h => ?_⟩
  · rcases hcases x n h with ⟨rfl, rfl⟩ | ⟨_, _, o, ho, rfl⟩
    · rfl
    · rw [markIf_isLeaf] at hl; rw [markIf_childs]; exact L.leaf x o ho hl
  · obtain ⟨o, o1, o2, o3⟩ := hback x n h
    rw [o3]; exact L.rootLevel x o o1 (by rw [← o2]; exact hp)
  · obtain ⟨o, o1, o2, o3⟩ := hback x n h
    obtain ⟨r, r1, r2, r3⟩ := hback _ q hq
    rw [o3, r3]
    exact L.level x o r o1 (by rw [← o2]; exact hp) (by rw [← o2]; exact r1)
  · obtain ⟨o, o1, o2, o3⟩ := hback x n h
    rw [o3]; exact L.le x o o1

theorem TLev.sameShape {t t' : PTree} (h : SameShapeT t t') (L : TLev t) : TLev t' := by
  have hback : ∀ x n, t'.tree x = some n → ∃ o, t.tree x = some o ∧ n.parent = o.parent ∧ n.level = o.level ∧ n.isLeaf = o.isLeaf ∧ n.childs = o.childs := by
    intro x n hx
    obtain ⟨o, l, p, e1, rfl⟩ := h.back hx
    exact ⟨o, e1, rfl, rfl, rfl, rfl⟩
  refine ⟨fun x n h hl => ?_, fun x n h hp => ?_, fun x n q h hp hq => ?_, fun x n h => ?_⟩
  · obtain ⟨o, o1, o2, o3, o4, o5⟩ := hback x n h
    rw [o5]; exact L.leaf x o o1 (by rw [← o4]; exact hl)
  · obtain ⟨o, o1, o2, o3, o4, o5⟩ := hback x n h
    rw [o3]; exact L.rootLevel x o o1 (by rw [← o2]; exact hp)
  · obtain ⟨o, o1, o2, o3, o4, o5⟩ := hback x n h
    obtain ⟨r, r1, r2, r3, -, -⟩ := hback _ q hq
    rw [o3, r3]
    exact L.level x o r o1 (by rw [← o2]; exact hp) (by rw [← o2]; exact r1)
  · obtain ⟨o, o1, o2, o3, -, -⟩ := hback x n h
    rw [o3]; exact L.le x o o1

theorem THist.lev_aux {t0 t : PTree} (h : THist t0 t) (H0 : TInv t0) (L0 : TLev t0) : TLev t := by
  induction h with
  | nil => exact L0
  | snoc o h' hl hr ih =>
    have H := h'.inv H0
    cases o with
    | root p c =>
      simp only [TOp.run, Res.ok.injEq] at hr
      subst hr
      exact TLev.root H ih p c hl
    | split i j =>
      obtain ⟨h1, h2⟩ := hl
      obtain ⟨n, n1, n2⟩ := (H.leaf i).1 h1
      exact TLev.split H ih i j n n1 h2 _ hr
    | merge i =>
      obtain ⟨n, n1, n2⟩ := (H.polk i).1 hl
      exact TLev.merge H ih i n n1 n2 _ hr
    | link i p =>
      obtain ⟨n, n1⟩ := hl
      obtain ⟨t2, e1, e2, -, -⟩ := setLinked_spec _ i p n n1
      have hr' : PTree.setLinked _ i p = _ := hr
      rw [e1] at hr'
      have := Res.ok.inj hr'
      subst this
      exact TLev.sameShape e2 ih

theorem THist.lev {t : PTree} (h : THist PTree.init t) : TLev t := h.lev_aux TInv.init TLev.init

/-! ### Tiling for any notion of containment -/

/-- The octants of every internal node partition it. -/
def Tiles (t : PTree) (In : PatchCoord → Prop) : Prop :=
  ∀ id n, t.tree id = some n → n.isLeaf = false →
    (In n.coord → ∃ i : Nat, ∃ ch, (getSplit n.coord)[i]? = some ch ∧ In ch ∧ ∀ (j : Nat) ch', (getSplit n.coord)[j]? = some ch' → In ch' → j = i) ∧
    ∀ ch ∈ getSplit n.coord, In ch → In n.coord

theorem Under.in_ {t : PTree} (H : TInv t) {In : PatchCoord → Prop} (hT : Tiles t In) {r x : Nat} (h : Under t r x) :
    ∀ n, t.tree x = some n → In n.coord → ∃ k, t.tree r = some k ∧ In k.coord := by
  induction h with
  | refl => intro n h hc; exact ⟨n, h, hc⟩
  | step h1 h2 h3 h4 _ ih =>
    intro n' h hc
    rw [h1, Option.some.injEq] at h
    subst h
    refine ih _ h2 ?_
    obtain ⟨i, hi⟩ := List.mem_iff_getElem?.1 h4
    obtain ⟨k, k1, _, _, k4⟩ := H.down _ _ h2 h3 i _ hi
    rw [h1, Option.some.injEq] at k1
    subst k1
    exact (hT _ _ h2 h3).2 _ (List.mem_iff_getElem?.2 ⟨i, k4⟩) hc

theorem Under.le {t : PTree} (H : TInv t) {r x : Nat} (h : Under t r x) : r ≤ x := by
  induction h with
  | refl => exact Nat.le_refl _
  | step h1 h2 h3 h4 _ ih =>
    obtain ⟨i, hi⟩ := List.mem_iff_getElem?.1 h4
    obtain ⟨k, _, _, k3, _⟩ := H.down _ _ h2 h3 i _ hi
    omega

theorem Under.trans {t : PTree} {a b c : Nat} (h1 : Under t a b) (h2 : Under t b c) : Under t a c := by
  induction h2 with
  | refl => exact h1
  | step a1 a2 a3 a4 _ ih => exact Under.step a1 a2 a3 a4 ih

/-- Two ancestors of a node are comparable. -/
theorem Under.linear {t : PTree} {a b x : Nat} (h1 : Under t a x) (h2 : Under t b x) : Under t a b ∨ Under t b a := by
  induction h1 with
  | refl => exact Or.inr h2
  | step a1 a2 a3 a4 a5 ih =>
    cases h2 with
    | refl => exact Or.inl (Under.step a1 a2 a3 a4 a5)
    | step b1 b2 b3 b4 b5 =>
      rw [a1, Option.some.injEq] at b1
      subst b1
      exact ih b5

/-- Descendants of two children of the same node are different. -/
theorem Under.siblings {t : PTree} (H : TInv t) {id : Nat} {n : PTNode} (hn : t.tree id = some n) (hl : n.isLeaf = false) {c c' x : Nat}
    (hc : c ∈ n.childs) (hc' : c' ∈ n.childs) (h1 : Under t c x) (h2 : Under t c' x) : c = c' := by
  have key : ∀ c c', c ∈ n.childs → c' ∈ n.childs → Under t c c' → c = c' := by
    intro c c' hc hc' h
    obtain ⟨i, hi⟩ := List.mem_iff_getElem?.1 hc
    obtain ⟨j, hj⟩ := List.mem_iff_getElem?.1 hc'
    obtain ⟨k, k1, k2, k3, _⟩ := H.down id n hn hl i c hi
    obtain ⟨k', k1', k2', k3', _⟩ := H.down id n hn hl j c' hj
    cases h with
    | refl => rfl
    | step b1 b2 b3 b4 b5 =>
      rw [k1', Option.some.injEq] at b1
      subst b1
      rw [k2'] at b5
      have := b5.le H
      omega
  rcases h1.linear h2 with h | h
  · exact key c c' hc hc' h
  · exact (key c' c hc' hc h).symm

theorem Under.roots {t : PTree} (H : TInv t) {r r' x : Nat} (hr : t.roots r = true) (hr' : t.roots r' = true) (h1 : Under t r x) (h2 : Under t r' x) :
    r = r' := by
  have hb := H.bound
  have hub := u64max_big
  have key : ∀ r r', t.roots r' = true → Under t r r' → r = r' := by
    intro r r' hr' h
    obtain ⟨n, n1, n2⟩ := (H.root r').1 hr'
    cases h with
    | refl => rfl
    | step b1 b2 b3 b4 b5 =>
      rw [n1, Option.some.injEq] at b1
      subst b1
      have := H.fresh _ _ b2
      omega
  rcases h1.linear h2 with h | h
  · exact key r r' hr' h
  · exact (key r' r hr h).symm

theorem leaf_unique_in {t : PTree} (H : TInv t) {In : PatchCoord → Prop} (hT : Tiles t In)
    (hr : ∀ a b na nb, t.roots a = true → t.roots b = true → t.tree a = some na → t.tree b = some nb → In na.coord → In nb.coord → a = b)
    {a b : Nat} {na nb : PTNode} (ha : t.tree a = some na) (hb : t.tree b = some nb) (la : na.isLeaf = true) (lb : nb.isLeaf = true)
    (ca : In na.coord) (cb : In nb.coord) : a = b := by
  have key : ∀ m r nr, t.tree r = some nr → t.nextId - r ≤ m → Under t r a → Under t r b → a = b := by
    intro m
    induction m with
    | zero => intro r nr h hm; have := H.fresh r nr h; omega
    | succ m ih =>
      intro r nr h hm ua ub
      rcases ua.first with rfl | ⟨q, c, nc, a1, a2, a3, a4, a5, a6⟩
      · rcases ub.first with h' | ⟨q, c, nc, a1, a2, _⟩
        · exact h'
        · rw [ha, Option.some.injEq] at a1
          subst a1
          rw [la] at a2; cases a2
      · rcases ub.first with rfl | ⟨q', c', nc', b1, b2, b3, b4, b5, b6⟩
        · rw [hb, Option.some.injEq] at a1
          subst a1
          rw [lb] at a2; cases a2
        · rw [a1, Option.some.injEq] at b1
          subst b1
          obtain ⟨k, k1, k2⟩ := a6.in_ H hT na ha ca
          obtain ⟨k', k1', k2'⟩ := b6.in_ H hT nb hb cb
          obtain ⟨i, hi⟩ := List.mem_iff_getElem?.1 a3
          obtain ⟨j, hj⟩ := List.mem_iff_getElem?.1 b3
          obtain ⟨w, w1, w2, w3, w4⟩ := H.down r q a1 a2 i c hi
          obtain ⟨v, v1, v2, v3, v4⟩ := H.down r q a1 a2 j c' hj
          rw [k1, Option.some.injEq] at w1
          rw [k1', Option.some.injEq] at v1
          subst w1 v1
          obtain ⟨e, _, _, _, e3⟩ := (hT r q a1 a2).1 ((hT r q a1 a2).2 _ (List.mem_iff_getElem?.2 ⟨i, w4⟩) k2)
          have hij : i = j := (e3 i _ w4 k2).trans (e3 j _ v4 k2').symm
          subst hij
          rw [hi, Option.some.injEq] at hj
          subst hj
          have := H.fresh c _ k1
          exact ih c _ k1 (by omega) a6 b6
  obtain ⟨r, r1, r2⟩ := underRoot H a a na (Nat.le_refl _) ha
  obtain ⟨r', r1', r2'⟩ := underRoot H b b nb (Nat.le_refl _) hb
  obtain ⟨k, k1, k2⟩ := r2.in_ H hT na ha ca
  obtain ⟨k', k1', k2'⟩ := r2'.in_ H hT nb hb cb
  have := hr r r' k k' r1 r1' k1 k1' k2 k2'
  subst this
  exact key _ r k k1 (Nat.le_refl _) r2 r2'

/-! ### The serial tree represents the patch tree -/

/-- Entry `base + m` is the node `x` of the patch tree; `K[m']` is the key of the entry `base + m'`. -/
def Ent {F : Type} (box : PatchCoord → V3 F × V3 F) (t : PTree) (s : SSt F) (K : List Nat) (base m x : Nat) : Prop :=
  ∃ n nd, t.tree x = some n ∧ s.nodes[base + m]? = some nd ∧ s.links[base + m]? = some n.linked ∧ nd.lo = (box n.coord).1 ∧ nd.hi = (box n.coord).2 ∧
    ((n.isLeaf = true ∧ nd.childs.head? = some u64max) ∨
     (n.isLeaf = false ∧ nd.childs.length = n.childs.length ∧
       ∀ (k : Nat) c, n.childs[k]? = some c → ∃ m', nd.childs[k]? = some (base + m') ∧ K[m']? = some c))

theorem Ent.shift {F : Type} {box : PatchCoord → V3 F × V3 F} {t : PTree} {s s' : SSt F} {K K' : List Nat} {base base' m x off : Nat} (h : Ent box t s K base m x)
    (hn : s'.nodes[base + m]? = s.nodes[base + m]? ∧ s'.links[base + m]? = s.links[base + m]?) (hb : base = base' + off)
    (hK : ∀ (m : Nat) x, K[m]? = some x → K'[off + m]? = some x) : Ent box t s' K' base' (off + m) x := by
  obtain ⟨n, nd, h1, h2, h3, h4, h5, h6⟩ := h
  subst hb
  refine ⟨n, nd, h1, by rw [← Nat.add_assoc, hn.1, h2], by rw [← Nat.add_assoc, hn.2, h3], h4, h5, ?_⟩
  rcases h6 with h6 | ⟨a, b, c⟩
  · exact Or.inl h6
  · refine Or.inr ⟨a, b, fun k c' hk => ?_⟩
    obtain ⟨m', e1, e2⟩ := c k c' hk
    exact ⟨off + m', by rw [e1, Nat.add_assoc], hK m' c' e2⟩

structure SSt.WF {F : Type} (s : SSt F) : Prop where
  n : s.nodes.length = s.cnt
  l : s.links.length = s.cnt

/-- What the call on `key` from state `s` does. `K`: the keys in the order of the entries. -/
structure SerRes {F : Type} (box : PatchCoord → V3 F × V3 F) (t : PTree) (key : Nat) (s s' : SSt F) (K : List Nat) : Prop where
  wf : s'.WF
  keep : ∀ i < s.cnt, s'.nodes[i]? = s.nodes[i]? ∧ s'.links[i]? = s.links[i]?
  cnt : s'.cnt = s.cnt + K.length
  mem : ∀ x, x ∈ K ↔ Under t key x ∧ ∃ n, t.tree x = some n
  nodup : K.Nodup
  first : K.head? = some key
  lev : s.lev ≤ s'.lev ∧ ∀ x ∈ K, ∀ n, t.tree x = some n → n.level ≤ s'.lev
  ent : ∀ (m : Nat) x, K[m]? = some x → Ent box t s' K s.cnt m x

theorem setChild_spec {F : Type} (s : SSt F) (id k : Nat) (nd : SNode F) (h : s.nodes[id]? = some nd) :
    s.setChild id k = .ok { s with nodes := s.nodes.set id { nd with childs := nd.childs.set k s.cnt } } := by
  unfold SSt.setChild; rw [h]

/-- The children loop. -/
structure ChRes {F : Type} (box : PatchCoord → V3 F × V3 F) (t : PTree) (id : Nat) (cs : List Nat) (k : Nat) (nd : SNode F) (s s' : SSt F)
    (K : List Nat) (nd' : SNode F) : Prop where
  wf : s'.WF
  keep : ∀ i < s.cnt, i ≠ id → s'.nodes[i]? = s.nodes[i]?
  keepL : ∀ i < s.cnt, s'.links[i]? = s.links[i]?
  node : s'.nodes[id]? = some nd'
  lo : nd'.lo = nd.lo ∧ nd'.hi = nd.hi
  len : nd'.childs.length = nd.childs.length
  pre : ∀ m < k, nd'.childs[m]? = nd.childs[m]?
  ch : ∀ (m : Nat) c, cs[m]? = some c → ∃ m', nd'.childs[k + m]? = some (s.cnt + m') ∧ K[m']? = some c
  cnt : s'.cnt = s.cnt + K.length
  mem : ∀ x, x ∈ K ↔ ∃ c ∈ cs, Under t c x ∧ ∃ n, t.tree x = some n
  nodup : K.Nodup
  lev : s.lev ≤ s'.lev ∧ ∀ x ∈ K, ∀ n, t.tree x = some n → n.level ≤ s'.lev
  ent : ∀ (m : Nat) x, K[m]? = some x → Ent box t s' K s.cnt m x

theorem serChilds_ok {F : Type} (box : PatchCoord → V3 F × V3 F) (t : PTree) (rec : Nat → SSt F → Res (SSt F)) (id : Nat) :
    ∀ (cs : List Nat) (k : Nat) (s : SSt F) (nd : SNode F),
    (∀ c ∈ cs, ∀ s : SSt F, s.WF → ∃ s' K, rec c s = .ok s' ∧ SerRes box t c s s' K) →
    (cs.Pairwise fun c c' => ∀ x, Under t c x → ¬ Under t c' x) → s.WF → id < s.cnt → s.nodes[id]? = some nd → k + cs.length ≤ nd.childs.length →
    ∃ s' K nd', serChilds rec id cs k s = .ok s' ∧ ChRes box t id cs k nd s s' K nd' := by
  intro cs
  induction cs with
  | nil =>
    intro k s nd _ _ hw hid hn hk
    exact ⟨s, [], nd, rfl, hw, fun _ _ _ => rfl, fun _ _ => rfl, hn, ⟨rfl, rfl⟩, rfl, fun _ _ => rfl, by simp, by simp, by simp, by simp, by simp, by simp⟩
  | cons c cs ih =>
    intro k s nd hrec hpw hw hid hn hk
    simp only [List.length_cons] at hk
    obtain ⟨pw1, pw2⟩ := List.pairwise_cons.1 hpw
    let nd1 : SNode F := { nd with childs := nd.childs.set k s.cnt }
    let s1 : SSt F := { s with nodes := s.nodes.set id nd1 }
    have hs1 : s.setChild id k = .ok s1 := setChild_spec s id k nd hn
    have w1 : s1.WF := ⟨by show (s.nodes.set id nd1).length = s.cnt; rw [List.length_set]; exact hw.n, hw.l⟩
    have n1 : s1.nodes[id]? = some nd1 := by
      show (s.nodes.set id nd1)[id]? = _
      rw [List.getElem?_set_self (by rw [hw.n]; exact hid)]
    obtain ⟨s2, K1, e2, R⟩ := hrec c List.mem_cons_self s1 w1
    have hid2 : id < s2.cnt := by have := R.cnt; have : s1.cnt = s.cnt := rfl; omega
    have n2 : s2.nodes[id]? = some nd1 := by rw [(R.keep id hid).1, n1]
    obtain ⟨s3, K2, nd3, e3, C⟩ := ih (k + 1) s2 nd1 (fun c' h => hrec c' (List.mem_cons_of_mem _ h)) pw2 R.wf hid2 n2
      (by show _ ≤ (nd.childs.set k s.cnt).length; rw [List.length_set]; omega)
    have hc1 : s1.cnt = s.cnt := rfl
    have hcnt2 := R.cnt
    have hcnt3 := C.cnt
    refine ⟨s3, K1 ++ K2, nd3, ?_, ?_⟩
    · show (s.setChild id k).bind _ = _
      rw [hs1]
      show (rec c s1).bind _ = _
      rw [e2]
      exact e3
    refine ⟨C.wf, fun i hi hne => ?_, fun i hi => ?_, C.node, C.lo, ?_, fun m hm => ?_, fun m c' hm => ?_, ?_, fun x => ?_, ?_, ?_, fun m x hm => ?_⟩
    · rw [C.keep i (by omega) hne, (R.keep i hi).1]
      show (s.nodes.set id nd1)[i]? = _
      rw [List.getElem?_set_ne (Ne.symm hne)]
    · rw [C.keepL i (by omega), (R.keep i hi).2]
    · rw [C.len]; exact List.length_set
    · rw [C.pre m (by omega)]
      show (nd.childs.set k s.cnt)[m]? = _
      rw [List.getElem?_set_ne (by omega)]
    · cases m with
      | zero =>
        rw [List.getElem?_cons_zero, Option.some.injEq] at hm
        subst hm
        have hf := R.first
        rw [List.head?_eq_getElem?] at hf
        refine ⟨0, ?_, ?_⟩
        · rw [Nat.add_zero, C.pre k (by omega)]
          show (nd.childs.set k s.cnt)[k]? = _
          rw [List.getElem?_set_self (by omega)]; rfl
        · rw [List.getElem?_append_left (List.getElem?_eq_some_iff.1 hf).1]; exact hf
      | succ m =>
        rw [List.getElem?_cons_succ] at hm
        obtain ⟨m', e1, e2⟩ := C.ch m c' hm
        refine ⟨K1.length + m', ?_, ?_⟩
        · rw [show k + (m + 1) = k + 1 + m by omega, e1]
          congr 1; omega
        · rw [List.getElem?_append_right (by omega), Nat.add_sub_cancel_left]; exact e2
    · rw [List.length_append]; omega
    · rw [List.mem_append, R.mem, C.mem]
      constructor
      · rintro (h | ⟨c', h1, h2⟩)
        · exact ⟨c, List.mem_cons_self, h⟩
        · exact ⟨c', List.mem_cons_of_mem _ h1, h2⟩
      · rintro ⟨c', h1, h2⟩
        rcases List.mem_cons.1 h1 with rfl | h1
        · exact Or.inl h2
        · exact Or.inr ⟨c', h1, h2⟩
    · refine List.nodup_append.2 ⟨R.nodup, C.nodup, fun a ha b hb hab => ?_⟩
      subst hab
      obtain ⟨c', h1, h2, _⟩ := (C.mem a).1 hb
      exact pw1 c' h1 a ((R.mem a).1 ha).1 h2
    · refine ⟨Nat.le_trans R.lev.1 C.lev.1, fun x hx n hn => ?_⟩
      rcases List.mem_append.1 hx with hx | hx
      · exact Nat.le_trans (R.lev.2 x hx n hn) C.lev.1
      · exact C.lev.2 x hx n hn
    · by_cases hlt : m < K1.length
      · rw [List.getElem?_append_left hlt] at hm
        have := (R.ent m x hm).shift (s' := s3) (K' := K1 ++ K2) (base' := s.cnt) (off := 0)
          ⟨C.keep _ (by omega) (by omega), C.keepL _ (by omega)⟩ rfl (fun m x h => by
            rw [Nat.zero_add, List.getElem?_append_left (List.getElem?_eq_some_iff.1 h).1]; exact h)
        rwa [Nat.zero_add] at this
      · rw [List.getElem?_append_right (by omega)] at hm
        have := (C.ent _ x hm).shift (s' := s3) (K' := K1 ++ K2) (base' := s.cnt) (off := K1.length) ⟨rfl, rfl⟩ (by omega) (fun m x h => by
            rw [List.getElem?_append_right (by omega), Nat.add_sub_cancel_left]; exact h)
        rwa [show K1.length + (m - K1.length) = m by omega] at this

theorem serTree_ok {F : Type} (box : PatchCoord → V3 F × V3 F) (t : PTree) (H : TInv t) (L : TLev t) : ∀ (fuel key : Nat) (n : PTNode) (s : SSt F),
    t.tree key = some n → t.nextId - key ≤ fuel → s.WF → ∃ s' K, serTree box t fuel key s = .ok s' ∧ SerRes box t key s s' K := by
  intro fuel
  induction fuel with
  | zero => intro key n s h hf; have := H.fresh key n h; omega
  | succ fuel ih =>
    intro key n s h hf hw
    let s1 := s.push box n
    have w1 : s1.WF := ⟨by show (s.nodes ++ _).length = s.cnt + 1; rw [List.length_append, hw.n, List.length_singleton],
      by show (s.links ++ _).length = s.cnt + 1; rw [List.length_append, hw.l, List.length_singleton]⟩
    have c1 : s1.cnt = s.cnt + 1 := rfl
    have nn : s1.nodes[s.cnt]? = some (n.convert box) := by
      show (s.nodes ++ [n.convert box])[s.cnt]? = _
      rw [List.getElem?_append_right (by rw [hw.n]), hw.n, Nat.sub_self, List.getElem?_cons_zero]
    have nl : s1.links[s.cnt]? = some n.linked := by
      show (s.links ++ [n.linked])[s.cnt]? = _
      rw [List.getElem?_append_right (by rw [hw.l]), hw.l, Nat.sub_self, List.getElem?_cons_zero]
    have kp : ∀ i < s.cnt, s1.nodes[i]? = s.nodes[i]? ∧ s1.links[i]? = s.links[i]? := by
      intro i hi
      constructor
      · show (s.nodes ++ [n.convert box])[i]? = _
        rw [List.getElem?_append_left (by rw [hw.n]; omega)]
      · show (s.links ++ [n.linked])[i]? = _
        rw [List.getElem?_append_left (by rw [hw.l]; omega)]
    have hlevs : s.lev ≤ s1.lev ∧ n.level ≤ s1.lev := by
      show _ ≤ max n.level s.lev ∧ _ ≤ max n.level s.lev
      omega
    cases hl : n.isLeaf with
    | true =>
      refine ⟨s1, [key], ?_, w1, kp, rfl, fun x => ?_, by simp, rfl, ⟨hlevs.1, fun x hx k hk => ?_⟩, fun m x hm => ?_⟩
      · rw [serTree, h]; dsimp only; rw [hl]; rfl
      · rw [List.mem_singleton]
        constructor
        · rintro rfl; exact ⟨Under.refl _, n, h⟩
        · rintro ⟨hu, _⟩
          rcases hu.first with he | ⟨q, c, nc, a1, a2, _⟩
          · exact he.symm
          · rw [h, Option.some.injEq] at a1; subst a1; rw [hl] at a2; cases a2
      · rw [List.mem_singleton] at hx; subst hx; rw [h, Option.some.injEq] at hk; subst hk; exact hlevs.2
      · cases m with
        | zero =>
          rw [List.getElem?_cons_zero, Option.some.injEq] at hm
          subst hm
          exact ⟨n, n.convert box, h, nn, nl, rfl, rfl, Or.inl ⟨hl, L.leaf key n h hl⟩⟩
        | succ m => simp at hm
    | false =>
      have hkey := H.fresh key n h
      obtain ⟨s2, K, nd', e, C⟩ := serChilds_ok box t (serTree box t fuel) s.cnt n.childs 0 s1 (n.convert box)
        (fun c hc s0 w0 => by
          obtain ⟨i, hi⟩ := List.mem_iff_getElem?.1 hc
          obtain ⟨k, k1, _, k3, _⟩ := H.down key n h hl i c hi
          exact ih c k s0 k1 (by omega) w0)
        (by
          rw [List.pairwise_iff_getElem]
          intro i j hi hj hij x h1 h2
          have := Under.siblings H h hl (List.getElem_mem hi) (List.getElem_mem hj) h1 h2
          have := ((H.kids key n h hl).2.getElem_inj_iff).1 this
          omega)
        w1 (by omega) nn (by show 0 + n.childs.length ≤ n.childs.length; omega)
      refine ⟨s2, key :: K, ?_, C.wf, fun i hi => ?_, ?_, fun x => ?_, ?_, rfl, ⟨Nat.le_trans hlevs.1 C.lev.1, fun x hx k hk => ?_⟩, fun m x hm => ?_⟩
      · rw [serTree, h]; dsimp only; rw [hl, if_neg Bool.false_ne_true]; exact e
      · rw [C.keep i (by omega) (by omega), C.keepL i (by omega)]; exact kp i hi
      · rw [C.cnt, List.length_cons]; omega
      · rw [List.mem_cons, C.mem]
        constructor
        · rintro (rfl | ⟨c, hc, hu, hx⟩)
          · exact ⟨Under.refl _, n, h⟩
          · refine ⟨?_, hx⟩
            obtain ⟨i, hi⟩ := List.mem_iff_getElem?.1 hc
            obtain ⟨k, k1, k2, _, _⟩ := H.down key n h hl i c hi
            have hu0 : Under t key c := Under.step k1 (by rw [k2]; exact h) hl hc (by rw [k2]; exact Under.refl _)
            exact hu0.trans hu
        · rintro ⟨hu, hx⟩
          rcases hu.first with he | ⟨q, c, nc, a1, a2, a3, a4, a5, a6⟩
          · exact Or.inl he.symm
          · rw [h, Option.some.injEq] at a1; subst a1
            exact Or.inr ⟨c, a3, a6, hx⟩
      · refine List.nodup_cons.2 ⟨fun hk => ?_, C.nodup⟩
        obtain ⟨c, hc, hu, _⟩ := (C.mem key).1 hk
        obtain ⟨i, hi⟩ := List.mem_iff_getElem?.1 hc
        obtain ⟨k, _, _, k3, _⟩ := H.down key n h hl i c hi
        have := hu.le H
        omega
      · rcases List.mem_cons.1 hx with rfl | hx
        · rw [h, Option.some.injEq] at hk; subst hk; exact Nat.le_trans hlevs.2 C.lev.1
        · exact C.lev.2 x hx k hk
      · have hsh : ∀ (m : Nat) x, K[m]? = some x → (key :: K)[1 + m]? = some x := by
          intro m x h
          rw [Nat.add_comm, List.getElem?_cons_succ]; exact h
        cases m with
        | zero =>
          rw [List.getElem?_cons_zero, Option.some.injEq] at hm
          subst hm
          refine ⟨n, nd', h, C.node, by rw [C.keepL _ (by omega)]; exact nl, C.lo.1, C.lo.2, Or.inr ⟨hl, C.len, fun k c hk => ?_⟩⟩
          obtain ⟨m', e1, e2⟩ := C.ch k c hk
          rw [Nat.zero_add] at e1
          exact ⟨1 + m', by rw [e1, c1, Nat.add_assoc], hsh m' c e2⟩
        | succ m =>
          rw [List.getElem?_cons_succ] at hm
          have := (C.ent m x hm).shift (s' := s2) (K' := key :: K) (base' := s.cnt) (off := 1) ⟨rfl, rfl⟩ c1 hsh
          rwa [Nat.add_comm 1 m] at this

/-- The loop on the roots. -/
structure RootsRes {F : Type} (box : PatchCoord → V3 F × V3 F) (t : PTree) (rs : List Nat) (s s' : SSt F) (K ids : List Nat) : Prop where
  wf : s'.WF
  keep : ∀ i < s.cnt, s'.nodes[i]? = s.nodes[i]? ∧ s'.links[i]? = s.links[i]?
  cnt : s'.cnt = s.cnt + K.length
  mem : ∀ x, x ∈ K ↔ ∃ r ∈ rs, Under t r x ∧ ∃ n, t.tree x = some n
  nodup : K.Nodup
  lev : s.lev ≤ s'.lev ∧ ∀ x ∈ K, ∀ n, t.tree x = some n → n.level ≤ s'.lev
  len : ids.length = rs.length
  roots : ∀ (m : Nat) r, rs[m]? = some r → ∃ m', ids[m]? = some (s.cnt + m') ∧ K[m']? = some r
  ent : ∀ (m : Nat) x, K[m]? = some x → Ent box t s' K s.cnt m x

theorem serRoots_ok {F : Type} (box : PatchCoord → V3 F × V3 F) (t : PTree) (H : TInv t) (L : TLev t) : ∀ (rs : List Nat) (s : SSt F) (ids0 : List Nat),
    (∀ r ∈ rs, t.roots r = true) → rs.Nodup → s.WF →
    ∃ s' K ids, serRoots box t rs s ids0 = .ok (s', ids0 ++ ids) ∧ RootsRes box t rs s s' K ids := by
  intro rs
  induction rs with
  | nil =>
    intro s ids0 _ _ hw
    exact ⟨s, [], [], by rw [serRoots, List.append_nil], hw, fun _ _ => ⟨rfl, rfl⟩, rfl, by simp, by simp, by simp, rfl, by simp, by simp⟩
  | cons r rs ih =>
    intro s ids0 hr hnd hw
    obtain ⟨nd1, nd2⟩ := List.nodup_cons.1 hnd
    obtain ⟨n, n1, _⟩ := (H.root r).1 (hr r List.mem_cons_self)
    obtain ⟨s1, K1, e1, R⟩ := serTree_ok box t H L (t.nextId + 1) r n s n1 (by omega) hw
    obtain ⟨s2, K2, ids, e2, C⟩ := ih s1 (ids0 ++ [s.cnt]) (fun x hx => hr x (List.mem_cons_of_mem _ hx)) nd2 R.wf
    have hcnt1 := R.cnt
    have hcnt2 := C.cnt
    refine ⟨s2, K1 ++ K2, s.cnt :: ids, ?_, C.wf, fun i hi => ?_, ?_, fun x => ?_, ?_, ?_, by rw [List.length_cons, List.length_cons, C.len], fun m r' hm => ?_, fun m x hm => ?_⟩
    · rw [serRoots, e1]
      show serRoots box t rs s1 (ids0 ++ [s.cnt]) = _
      rw [e2, List.append_assoc]; rfl
    · rw [(C.keep i (by omega)).1, (C.keep i (by omega)).2]; exact R.keep i hi
    · rw [List.length_append]; omega
    · rw [List.mem_append, R.mem, C.mem]
      constructor
      · rintro (h | ⟨c', h1, h2⟩)
        · exact ⟨r, List.mem_cons_self, h⟩
        · exact ⟨c', List.mem_cons_of_mem _ h1, h2⟩
      · rintro ⟨c', h1, h2⟩
        rcases List.mem_cons.1 h1 with rfl | h1
        · exact Or.inl h2
        · exact Or.inr ⟨c', h1, h2⟩
    · refine List.nodup_append.2 ⟨R.nodup, C.nodup, fun a ha b hb hab => ?_⟩
      subst hab
      obtain ⟨c', h1, h2, _⟩ := (C.mem a).1 hb
      have := Under.roots H (hr r List.mem_cons_self) (hr c' (List.mem_cons_of_mem _ h1)) ((R.mem a).1 ha).1 h2
      subst this
      exact nd1 h1
    · refine ⟨Nat.le_trans R.lev.1 C.lev.1, fun x hx n hn => ?_⟩
      rcases List.mem_append.1 hx with hx | hx
      · exact Nat.le_trans (R.lev.2 x hx n hn) C.lev.1
      · exact C.lev.2 x hx n hn
    · cases m with
      | zero =>
        rw [List.getElem?_cons_zero, Option.some.injEq] at hm
        subst hm
        have hf := R.first
        rw [List.head?_eq_getElem?] at hf
        exact ⟨0, rfl, by rw [List.getElem?_append_left (List.getElem?_eq_some_iff.1 hf).1]; exact hf⟩
      | succ m =>
        rw [List.getElem?_cons_succ] at hm
        obtain ⟨m', e1, e2⟩ := C.roots m r' hm
        refine ⟨K1.length + m', ?_, ?_⟩
        · rw [List.getElem?_cons_succ, e1]
          congr 1; omega
        · rw [List.getElem?_append_right (by omega), Nat.add_sub_cancel_left]; exact e2
    · by_cases hlt : m < K1.length
      · rw [List.getElem?_append_left hlt] at hm
        have := (R.ent m x hm).shift (s' := s2) (K' := K1 ++ K2) (base' := s.cnt) (off := 0)
          (C.keep _ (by omega)) rfl (fun m x h => by
            rw [Nat.zero_add, List.getElem?_append_left (List.getElem?_eq_some_iff.1 h).1]; exact h)
        rwa [Nat.zero_add] at this
      · rw [List.getElem?_append_right (by omega)] at hm
        have := (C.ent _ x hm).shift (s' := s2) (K' := K1 ++ K2) (base' := s.cnt) (off := K1.length) ⟨rfl, rfl⟩ (by omega) (fun m x h => by
            rw [List.getElem?_append_right (by omega), Nat.add_sub_cancel_left]; exact h)
        rwa [show K1.length + (m - K1.length) = m by omega] at this

/-- The chain of the children finds the only one which contains the position. -/
theorem ownerChild_found {F : Type} [LinearOrder F] (nodes : List (SNode F)) (p : V3 F) (cur : Nat) : ∀ (cs : List Nat) (i c : Nat) (nd : SNode F),
    (∀ c ∈ cs, ∃ nd, nodes[c]? = some nd) → cs[i]? = some c → nodes[c]? = some nd → InHalfOpen nd.lo nd.hi p →
    (∀ (j : Nat) c' nd', cs[j]? = some c' → nodes[c']? = some nd' → InHalfOpen nd'.lo nd'.hi p → j = i) → ownerChild nodes p cur cs = .ok c := by
  intro cs
  induction cs with
  | nil => intro i c nd _ h; simp at h
  | cons c0 cs ih =>
    intro i c nd hall hi hn hp hu
    obtain ⟨nd0, hn0⟩ := hall c0 List.mem_cons_self
    rw [ownerChild, hn0]
    dsimp only
    cases i with
    | zero =>
      rw [List.getElem?_cons_zero, Option.some.injEq] at hi
      subst hi
      rw [hn, Option.some.injEq] at hn0
      subst hn0
      rw [if_pos ((inPatchConverted_iff _ _ _).2 hp)]
    | succ i =>
      rw [if_neg (fun h => by
        have := hu 0 c0 nd0 rfl hn0 ((inPatchConverted_iff _ _ _).1 h)
        omega)]
      rw [List.getElem?_cons_succ] at hi
      exact ih i c nd (fun c hc => hall c (List.mem_cons_of_mem _ hc)) hi hn hp (fun j c' nd' h1 h2 h3 => by
        have := hu (j + 1) c' nd' (by rw [List.getElem?_cons_succ]; exact h1) h2 h3
        omega)

theorem ownerChild_stay {F : Type} [LinearOrder F] (nodes : List (SNode F)) (p : V3 F) (cur : Nat) : ∀ (cs : List Nat),
    (∀ c ∈ cs, ∃ nd, nodes[c]? = some nd ∧ ¬ InHalfOpen nd.lo nd.hi p) → ownerChild nodes p cur cs = .ok cur := by
  intro cs
  induction cs with
  | nil => intro _; rfl
  | cons c0 cs ih =>
    intro hall
    obtain ⟨nd0, hn0, h0⟩ := hall c0 List.mem_cons_self
    rw [ownerChild, hn0]
    dsimp only
    rw [if_neg (fun h => h0 ((inPatchConverted_iff _ _ _).1 h))]
    exact ih (fun c hc => hall c (List.mem_cons_of_mem _ hc))

/-- The whole serial tree: entry `m` is the node with key `K[m]`. -/
structure SerOk {F : Type} (box : PatchCoord → V3 F × V3 F) (t : PTree) (rs : List Nat) (s : SSt F) (ids K : List Nat) : Prop where
  nodes : s.nodes.length = K.length
  links : s.links.length = K.length
  mem : ∀ x, x ∈ K ↔ ∃ n, t.tree x = some n
  nodup : K.Nodup
  lev : ∀ x n, t.tree x = some n → n.level ≤ s.lev
  small : K.length ≤ 2 ^ 32
  len : ids.length = rs.length
  roots : ∀ (m : Nat) r, rs[m]? = some r → ∃ m', ids[m]? = some m' ∧ K[m']? = some r
  ent : ∀ (m : Nat) x, K[m]? = some x → ∃ n nd, t.tree x = some n ∧ s.nodes[m]? = some nd ∧ s.links[m]? = some n.linked ∧
    nd.lo = (box n.coord).1 ∧ nd.hi = (box n.coord).2 ∧
    ((n.isLeaf = true ∧ nd.childs.head? = some u64max) ∨
     (n.isLeaf = false ∧ nd.childs.length = n.childs.length ∧
       ∀ (k : Nat) c, n.childs[k]? = some c → ∃ m', nd.childs[k]? = some m' ∧ K[m']? = some c))

theorem nodup_length_le (K : List Nat) (N : Nat) (hn : K.Nodup) (h : ∀ x ∈ K, x < N) : K.length ≤ N := by
  have := (List.subperm_of_subset hn (l₂ := List.range N) (fun x hx => List.mem_range.2 (h x hx))).length_le
  rwa [List.length_range] at this

theorem serBuild_ok {F : Type} (box : PatchCoord → V3 F × V3 F) (t : PTree) (H : TInv t) (L : TLev t) (rs : List Nat)
    (hr : ∀ r, r ∈ rs ↔ t.roots r = true) (hnd : rs.Nodup) : ∃ s ids K, serBuild box t rs = .ok (s, ids) ∧ SerOk box t rs s ids K := by
  obtain ⟨s, K, ids, e, R⟩ := serRoots_ok box t H L rs ⟨[], [], 0, 0⟩ [] (fun r h => (hr r).1 h) hnd ⟨rfl, rfl⟩
  have hcnt : s.cnt = K.length := by rw [R.cnt]; exact Nat.zero_add _
  have hmem : ∀ x, x ∈ K ↔ ∃ n, t.tree x = some n := by
    intro x
    rw [R.mem]
    constructor
    · rintro ⟨_, _, _, h⟩; exact h
    · rintro ⟨n, hn⟩
      obtain ⟨r, r1, r2⟩ := underRoot H x x n (Nat.le_refl _) hn
      exact ⟨r, (hr r).2 r1, r2, n, hn⟩
  refine ⟨s, ids, K, e, by rw [R.wf.n, hcnt], by rw [R.wf.l, hcnt], hmem, R.nodup, fun x n h => R.lev.2 x ((hmem x).2 ⟨n, h⟩) n h, ?_, R.len,
    fun m r h => ?_, fun m x h => ?_⟩
  · refine Nat.le_trans (nodup_length_le K t.nextId R.nodup fun x hx => ?_) H.bound
    obtain ⟨n, hn⟩ := (hmem x).1 hx
    exact H.fresh x n hn
  · obtain ⟨m', e1, e2⟩ := R.roots m r h
    exact ⟨m', by rw [e1]; congr 1; exact Nat.zero_add _, e2⟩
  · obtain ⟨n, nd, a1, a2, a3, a4, a5, a6⟩ := R.ent m x h
    rw [show (⟨[], [], 0, 0⟩ : SSt F).cnt = 0 from rfl, Nat.zero_add] at a2 a3
    refine ⟨n, nd, a1, a2, a3, a4, a5, ?_⟩
    rcases a6 with a6 | ⟨b1, b2, b3⟩
    · exact Or.inl a6
    · refine Or.inr ⟨b1, b2, fun k c hk => ?_⟩
      obtain ⟨m', e1, e2⟩ := b3 k c hk
      exact ⟨m', by rw [e1]; congr 1; exact Nat.zero_add _, e2⟩

/-- The descent from the entry of a node containing the position reaches the leaf containing it. -/
theorem ownerLoop_found {F : Type} [LinearOrder F] {box : PatchCoord → V3 F × V3 F} {t : PTree} (H : TInv t) (L : TLev t) {rs ids K : List Nat} {s : SSt F}
    (S : SerOk box t rs s ids K) (p : V3 F) (hT : Tiles t fun c => InHalfOpen (box c).1 (box c).2 p) :
    ∀ (w m x : Nat) (n : PTNode) (steps : Nat), t.nextId - x ≤ w → K[m]? = some x → t.tree x = some n → InHalfOpen (box n.coord).1 (box n.coord).2 p →
      s.lev + 1 ≤ steps + n.level → ∃ l k, t.tree l = some k ∧ k.isLeaf = true ∧ InHalfOpen (box k.coord).1 (box k.coord).2 p ∧
        ownerLoop s p steps m = .ok k.linked := by
  intro w
  induction w with
  | zero => intro m x n steps hw _ hx; have := H.fresh x n hx; omega
  | succ w ih =>
    intro m x n steps hw hm hx hp hst
    have := S.lev x n hx
    obtain ⟨steps, rfl⟩ : ∃ k, steps = k + 1 := ⟨steps - 1, by omega⟩
    obtain ⟨n', nd, a1, a2, a3, a4, a5, a6⟩ := S.ent m x hm
    rw [hx, Option.some.injEq] at a1
    subst a1
    rw [ownerLoop, a2]
    dsimp only
    rcases a6 with ⟨b1, b2⟩ | ⟨b1, b2, b3⟩
    · refine ⟨x, n, hx, b1, hp, ?_⟩
      rw [if_neg (by rw [b2]; exact not_not.2 rfl), a3]
    · obtain ⟨i, ch, m1, m2, m3⟩ := (hT x n hx b1).1 hp
      have hk8 := (H.kids x n hx b1).1
      have hm8 : i < 8 := by
        have := (List.getElem?_eq_some_iff.1 m1).1
        have h8 : (getSplit n.coord).length = 8 := getSplit_length _
        omega
      have hkid : ∀ (k : Nat) j, nd.childs[k]? = some j → ∃ c kn knd, n.childs[k]? = some c ∧ K[j]? = some c ∧ t.tree c = some kn ∧ kn.parent = x ∧ x < c ∧
          (getSplit n.coord)[k]? = some kn.coord ∧ s.nodes[j]? = some knd ∧ knd.lo = (box kn.coord).1 ∧ knd.hi = (box kn.coord).2 := by
        intro k j hk
        have hlt : k < n.childs.length := by have := (List.getElem?_eq_some_iff.1 hk).1; omega
        have hc := List.getElem?_eq_getElem hlt
        obtain ⟨j', e1, e2⟩ := b3 k _ hc
        rw [hk, Option.some.injEq] at e1
        subst e1
        obtain ⟨kn, k1, k2, k3, k4⟩ := H.down x n hx b1 k _ hc
        obtain ⟨kn', knd, q1, q2, q3, q4, q5, _⟩ := S.ent j _ e2
        rw [k1, Option.some.injEq] at q1
        subst q1
        exact ⟨_, kn, knd, hc, e2, k1, k2, k3, k4, q2, q4, q5⟩
      obtain ⟨j, hj⟩ : ∃ j, nd.childs[i]? = some j := ⟨_, List.getElem?_eq_getElem (by omega)⟩
      obtain ⟨c, kn, knd, c1, c2, c3, c4, c5, c6, c7, c8, c9⟩ := hkid i j hj
      have hkn : ch = kn.coord := by rw [m1, Option.some.injEq] at c6; exact c6
      subst hkn
      have hub := u64max_big
      have hhead : nd.childs.head? ≠ some u64max := by
        rw [List.head?_eq_getElem?]
        intro he
        obtain ⟨c', _, _, _, e2, _⟩ := hkid 0 _ he
        have := (List.getElem?_eq_some_iff.1 e2).1
        have := S.small
        omega
      have hoc : ownerChild s.nodes p m nd.childs = .ok j := by
        refine ownerChild_found _ _ _ _ i j knd ?_ hj c7 (by rw [c8, c9]; exact m2) ?_
        · intro j' hj'
          obtain ⟨k, hk⟩ := List.mem_iff_getElem?.1 hj'
          obtain ⟨_, _, knd', _, _, _, _, _, _, e, _⟩ := hkid k j' hk
          exact ⟨knd', e⟩
        · intro k j' knd' hk hn' hp'
          obtain ⟨_, kn2, knd2, _, _, _, _, _, q3, q4, q5, q6⟩ := hkid k j' hk
          rw [hn', Option.some.injEq] at q4
          subst q4
          rw [q5, q6] at hp'
          exact m3 k _ q3 hp'
      have hlv : kn.level = n.level + 1 := by
        have hlt := H.fresh x n hx
        have hb := H.bound
        exact L.level c kn n c3 (by rw [c4]; omega) (by rw [c4]; exact hx)
      obtain ⟨l, k, l1, l2, l3, l4⟩ := ih j c kn steps (by omega) c2 c3 m2 (by omega)
      refine ⟨l, k, l1, l2, l3, ?_⟩
      rw [if_pos hhead, hoc]
      exact l4

theorem ownerRoot_found {F : Type} [LinearOrder F] (nodes : List (SNode F)) (p : V3 F) : ∀ (ids : List Nat) (i c : Nat) (nd : SNode F),
    (∀ c ∈ ids, c < 2 ^ 32 ∧ ∃ nd, nodes[c]? = some nd) → ids[i]? = some c → nodes[c]? = some nd → InHalfOpen nd.lo nd.hi p →
    (∀ (j : Nat) c' nd', ids[j]? = some c' → nodes[c']? = some nd' → InHalfOpen nd'.lo nd'.hi p → j = i) → ownerRoot nodes p ids = .ok c := by
  intro ids
  induction ids with
  | nil => intro i c nd _ h; simp at h
  | cons c0 cs ih =>
    intro i c nd hall hi hn hp hu
    obtain ⟨hlt, nd0, hn0⟩ := hall c0 List.mem_cons_self
    rw [ownerRoot, Nat.mod_eq_of_lt hlt, hn0]
    dsimp only
    cases i with
    | zero =>
      rw [List.getElem?_cons_zero, Option.some.injEq] at hi
      subst hi
      rw [hn, Option.some.injEq] at hn0
      subst hn0
      rw [if_pos ((inPatchConverted_iff _ _ _).2 hp)]
    | succ i =>
      rw [if_neg (fun h => by
        have := hu 0 c0 nd0 rfl hn0 ((inPatchConverted_iff _ _ _).1 h)
        omega)]
      rw [List.getElem?_cons_succ] at hi
      exact ih i c nd (fun c hc => hall c (List.mem_cons_of_mem _ hc)) hi hn hp (fun j c' nd' h1 h2 h3 => by
        have := hu (j + 1) c' nd' (by rw [List.getElem?_cons_succ]; exact h1) h2 h3
        omega)

theorem ownerRoot_none {F : Type} [LinearOrder F] (nodes : List (SNode F)) (p : V3 F) : ∀ (ids : List Nat),
    (∀ c ∈ ids, c < 2 ^ 32 ∧ ∃ nd, nodes[c]? = some nd ∧ ¬ InHalfOpen nd.lo nd.hi p) → ownerRoot nodes p ids = .ok 0 := by
  intro ids
  induction ids with
  | nil => intro _; rfl
  | cons c0 cs ih =>
    intro hall
    obtain ⟨hlt, nd0, hn0, h0⟩ := hall c0 List.mem_cons_self
    rw [ownerRoot, Nat.mod_eq_of_lt hlt, hn0]
    dsimp only
    rw [if_neg (fun h => h0 ((inPatchConverted_iff _ _ _).1 h))]
    exact ih (fun c hc => hall c (List.mem_cons_of_mem _ hc))

/-- From a node without a child containing the position the loop does not move. -/
theorem ownerLoop_stuck {F : Type} [LinearOrder F] (s : SSt F) (p : V3 F) (cur : Nat) (nd : SNode F) (hn : s.nodes[cur]? = some nd)
    (hh : nd.childs.head? ≠ some u64max) (hc : ∀ c ∈ nd.childs, ∃ k, s.nodes[c]? = some k ∧ ¬ InHalfOpen k.lo k.hi p) :
    ∀ steps, ownerLoop s p steps cur = .ok u64max := by
  intro steps
  induction steps with
  | zero => rfl
  | succ k ih =>
    rw [ownerLoop, hn]
    dsimp only
    rw [if_pos hh, ownerChild_stay _ _ _ _ hc]
    exact ih

/-! ### Traversal -/

/-- The callback accepts the entry of the key `z`. -/
def Accepts {F : Type} (s : SSt F) (K : List Nat) (cd : Nat → SNode F → Bool) (z : Nat) : Prop :=
  ∃ (m : Nat) (nd : SNode F), K[m]? = some z ∧ s.nodes[m]? = some nd ∧ cd m nd = true

/-- One reported pair is the leaf `y`. -/
def Reports {F : Type} (t : PTree) (s : SSt F) (K : List Nat) (o : Nat × SNode F) (y : Nat) : Prop :=
  ∃ (m : Nat) (nd : SNode F) (n : PTNode), K[m]? = some y ∧ s.nodes[m]? = some nd ∧ t.tree y = some n ∧ o = (n.linked, nd)

/-- The effect of handling the stack entries `ms`, whose subtrees are those of the keys `xs`. -/
def Visits {F : Type} (t : PTree) (s : SSt F) (K : List Nat) (cd : Nat → SNode F → Bool) (ms xs : List Nat) : Prop :=
  ∃ N O X, (∀ f st acc, forEachLeaf s cd (f + N) (ms ++ st) acc = forEachLeaf s cd f st (acc ++ O)) ∧ List.Forall₂ (Reports t s K) O X ∧ X.Nodup ∧
    ∀ y, y ∈ X ↔ ∃ x ∈ xs, (∃ n, t.tree y = some n ∧ n.isLeaf = true) ∧ Under t x y ∧ ∀ z, Under t x z → Under t z y → Accepts s K cd z

theorem Visits.nil {F : Type} (t : PTree) (s : SSt F) (K : List Nat) (cd : Nat → SNode F → Bool) : Visits t s K cd [] [] :=
  ⟨0, [], [], fun f st acc => by rw [Nat.add_zero, List.nil_append, List.append_nil], List.Forall₂.nil, List.nodup_nil, by simp⟩

theorem Visits.cons {F : Type} {t : PTree} {s : SSt F} {K : List Nat} {cd : Nat → SNode F → Bool} {m x : Nat} {ms xs : List Nat}
    (h1 : Visits t s K cd [m] [x]) (h2 : Visits t s K cd ms xs) (hd : ∀ x' ∈ xs, ∀ y, Under t x y → ¬ Under t x' y) : Visits t s K cd (m :: ms) (x :: xs) := by
  obtain ⟨N1, O1, X1, a1, a2, a3, a4⟩ := h1
  obtain ⟨N2, O2, X2, b1, b2, b3, b4⟩ := h2
  refine ⟨N2 + N1, O1 ++ O2, X1 ++ X2, fun f st acc => ?_, List.rel_append a2 b2, ?_, fun y => ?_⟩
  · have e1 := a1 (f + N2) (ms ++ st) acc
    have e2 := b1 f st (acc ++ O1)
    rw [List.append_assoc] at e2
    rw [← Nat.add_assoc]
    exact e1.trans e2
  · refine List.nodup_append.2 ⟨a3, b3, fun u hu v hv huv => ?_⟩
    subst huv
    obtain ⟨x1, h1, _, h2, _⟩ := (a4 u).1 hu
    obtain ⟨x2, h3, _, h4, _⟩ := (b4 u).1 hv
    rw [List.mem_singleton] at h1
    subst h1
    exact hd x2 h3 u h2 h4
  · rw [List.mem_append, a4, b4]
    constructor
    · rintro (⟨x1, h1, h2⟩ | ⟨x1, h1, h2⟩)
      · rw [List.mem_singleton] at h1; subst h1; exact ⟨x1, List.mem_cons_self, h2⟩
      · exact ⟨x1, List.mem_cons_of_mem _ h1, h2⟩
    · rintro ⟨x1, h1, h2⟩
      rcases List.mem_cons.1 h1 with rfl | h1
      · exact Or.inl ⟨x1, List.mem_singleton.2 rfl, h2⟩
      · exact Or.inr ⟨x1, h1, h2⟩

theorem Visits.many {F : Type} {t : PTree} {s : SSt F} {K : List Nat} {cd : Nat → SNode F → Bool} : ∀ (ms xs : List Nat),
    List.Forall₂ (fun m x => Visits t s K cd [m] [x]) ms xs → (xs.Pairwise fun x x' => ∀ y, Under t x y → ¬ Under t x' y) → Visits t s K cd ms xs := by
  intro ms xs h
  induction h with
  | nil => intro _; exact Visits.nil t s K cd
  | cons h1 _ ih =>
    intro hp
    obtain ⟨p1, p2⟩ := List.pairwise_cons.1 hp
    exact Visits.cons h1 (ih p2) p1

theorem forall2_of_getElem {α β : Type} {R : α → β → Prop} : ∀ (l : List α) (l' : List β), l.length = l'.length →
    (∀ (k : Nat) a b, l[k]? = some a → l'[k]? = some b → R a b) → List.Forall₂ R l l' := by
  intro l
  induction l with
  | nil => intro l' h _; cases l' with
    | nil => exact List.Forall₂.nil
    | cons b l' => simp at h
  | cons a l ih => intro l' h hR; cases l' with
    | nil => simp at h
    | cons b l' =>
      refine List.Forall₂.cons (hR 0 a b rfl rfl) (ih l' (by simpa using h) fun k a' b' h1 h2 => hR (k + 1) a' b' ?_ ?_)
      · rw [List.getElem?_cons_succ]; exact h1
      · rw [List.getElem?_cons_succ]; exact h2

theorem nodup_idx {K : List Nat} (hn : K.Nodup) {a b x : Nat} (h1 : K[a]? = some x) (h2 : K[b]? = some x) : a = b := by
  obtain ⟨l1, e1⟩ := List.getElem?_eq_some_iff.1 h1
  obtain ⟨l2, e2⟩ := List.getElem?_eq_some_iff.1 h2
  exact (hn.getElem_inj_iff).1 (e1.trans e2.symm)

theorem visits_one {F : Type} {box : PatchCoord → V3 F × V3 F} {t : PTree} (H : TInv t) {rs ids K : List Nat} {s : SSt F}
    (S : SerOk box t rs s ids K) (cd : Nat → SNode F → Bool)
    (hlk : ∀ x n, t.tree x = some n → (n.isLeaf = true ↔ n.linked ≠ u64max)) :
    ∀ (w m x : Nat), t.nextId - x ≤ w → K[m]? = some x → Visits t s K cd [m] [x] := by
  intro w
  induction w with
  | zero =>
    intro m x hw hm
    obtain ⟨n, hn⟩ := (S.mem x).1 (List.mem_of_getElem? hm)
    have := H.fresh x n hn; omega
  | succ w ih =>
    intro m x hw hm
    obtain ⟨n, nd, a1, a2, a3, a4, a5, a6⟩ := S.ent m x hm
    have hstep : ∀ f st acc, forEachLeaf s cd (f + 1) (m :: st) acc =
        if cd m nd then (if n.linked ≠ u64max then forEachLeaf s cd f st (acc ++ [(n.linked, nd)]) else forEachLeaf s cd f (nd.childs.reverse ++ st) acc)
        else forEachLeaf s cd f st acc := by
      intro f st acc; rw [forEachLeaf, a2, a3]
    have hacc : Accepts s K cd x ↔ cd m nd = true := by
      constructor
      · rintro ⟨m', nd', b1, b2, b3⟩
        have := nodup_idx S.nodup b1 hm
        subst this
        rw [a2, Option.some.injEq] at b2
        subst b2
        exact b3
      · intro h; exact ⟨m, nd, hm, a2, h⟩
    cases hcd : cd m nd with
    | false =>
      refine ⟨1, [], [], fun f st acc => ?_, List.Forall₂.nil, List.nodup_nil, fun y => ?_⟩
      · rw [List.singleton_append, hstep, hcd, List.append_nil]; rfl
      · constructor
        · intro h; simp at h
        · rintro ⟨x1, h1, _, h2, h3⟩
          rw [List.mem_singleton] at h1
          subst h1
          have := hacc.1 (h3 x1 (Under.refl _) h2)
          rw [hcd] at this; cases this
    | true =>
      rcases a6 with ⟨b1, b2⟩ | ⟨b1, b2, b3⟩
      · have hne := (hlk x n a1).1 b1
        refine ⟨1, [(n.linked, nd)], [x], fun f st acc => ?_, List.Forall₂.cons ⟨m, nd, n, hm, a2, a1, rfl⟩ List.Forall₂.nil, by simp, fun y => ?_⟩
        · rw [List.singleton_append, hstep, hcd, if_pos rfl, if_pos hne]
        · rw [List.mem_singleton]
          constructor
          · rintro rfl
            refine ⟨y, List.mem_singleton.2 rfl, ⟨n, a1, b1⟩, Under.refl _, fun z h1 h2 => ?_⟩
            have e1 := h1.le H
            have e2 := h2.le H
            have : z = y := by omega
            subst this
            exact hacc.2 hcd
          · rintro ⟨x1, h1, _, h2, h3⟩
            rw [List.mem_singleton] at h1
            subst h1
            rcases h2.first with he | ⟨q, c, nc, q1, q2, _⟩
            · exact he.symm
            · rw [a1, Option.some.injEq] at q1; subst q1; rw [b1] at q2; cases q2
      · have heq : n.linked = u64max := by
          by_contra hne
          have := (hlk x n a1).2 hne
          rw [b1] at this; cases this
        have hx := H.fresh x n a1
        have hkids := H.kids x n a1 b1
        obtain ⟨N, O, X, c1, c2, c3, c4⟩ := Visits.many (t := t) (s := s) (K := K) (cd := cd) nd.childs.reverse n.childs.reverse
          (by
            rw [List.forall₂_reverse_iff]
            refine forall2_of_getElem _ _ b2 fun k j c h1 h2 => ?_
            obtain ⟨m', e1, e2⟩ := b3 k c h2
            rw [h1, Option.some.injEq] at e1
            subst e1
            obtain ⟨kn, k1, k2, k3, _⟩ := H.down x n a1 b1 k c h2
            exact ih j c (by omega) e2)
          (by
            rw [List.pairwise_reverse, List.pairwise_iff_getElem]
            intro i j hi hj hij y h1 h2
            have := Under.siblings H a1 b1 (List.getElem_mem hi) (List.getElem_mem hj) h2 h1
            have := (hkids.2.getElem_inj_iff).1 this
            omega)
        refine ⟨N + 1, O, X, fun f st acc => ?_, c2, c3, fun y => ?_⟩
        · rw [List.singleton_append, ← Nat.add_assoc, hstep, hcd, if_pos rfl, if_neg (not_not.2 heq), c1]
        · rw [c4]
          constructor
          · rintro ⟨c, hc, hl, hu, ha⟩
            rw [List.mem_reverse] at hc
            obtain ⟨k, hk⟩ := List.mem_iff_getElem?.1 hc
            obtain ⟨kn, k1, k2, k3, _⟩ := H.down x n a1 b1 k c hk
            have hu0 : Under t x c := Under.step k1 (by rw [k2]; exact a1) b1 hc (by rw [k2]; exact Under.refl _)
            refine ⟨x, List.mem_singleton.2 rfl, hl, hu0.trans hu, fun z h1 h2 => ?_⟩
            rcases h1.first with he | ⟨q, c', nc, q1, q2, q3, q4, q5, q6⟩
            · subst he; exact hacc.2 hcd
            · rw [a1, Option.some.injEq] at q1
              subst q1
              have := Under.siblings H a1 b1 hc q3 hu (q6.trans h2)
              subst this
              exact ha z q6 h2
          · rintro ⟨x1, h1, hl, hu, ha⟩
            rw [List.mem_singleton] at h1
            subst h1
            rcases hu.first with he | ⟨q, c, nc, q1, q2, q3, q4, q5, q6⟩
            · subst he
              obtain ⟨n2, n3, n4⟩ := hl
              rw [a1, Option.some.injEq] at n3; subst n3; rw [b1] at n4; cases n4
            · rw [a1, Option.some.injEq] at q1
              subst q1
              refine ⟨c, List.mem_reverse.2 q3, hl, q6, fun z h1 h2 => ha z ?_ h2⟩
              have hu0 : Under t x1 c := Under.step q4 (by rw [q5]; exact a1) b1 q3 (by rw [q5]; exact Under.refl _)
              exact hu0.trans h1

end Shamrock
