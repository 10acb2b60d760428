import Verif.Proof.KarrasNode
/-! The work items of the Karras construction together make a tree. -/
namespace Shamrock

/-- A binary tree over leaves and internal cells, each named by its index. -/
inductive KTree where
  | leaf (k : Nat)
  | node (i : Nat) (l r : KTree)

/-- How a parent refers to the tree: index and "is a leaf" flag. -/
def KTree.ref : KTree → Nat × Bool
  | .leaf k => (k, true)
  | .node i _ _ => (i, false)

/-- Leaf indices, left to right. -/
def KTree.leaves : KTree → List Nat
  | .leaf k => [k]
  | .node _ l r => l.leaves ++ r.leaves

/-- Indices of the internal cells. -/
def KTree.internals : KTree → List Nat
  | .leaf _ => []
  | .node i l r => i :: (l.internals ++ r.internals)

/-- Number of edges of the longest path from the root. -/
def KTree.depth : KTree → Nat
  | .leaf _ => 0
  | .node _ l r => max l.depth r.depth + 1

/-- The arrays written by the construction encode the tree `T`: the child entries and flags of each cell designate its subtrees, and
the cell covers exactly the leaves between its own index and its end range. -/
def KTree.Encoded (nodes : List KNode) : KTree → Prop
  | .leaf _ => True
  | .node i l r => ∃ nd : KNode, nodes[i]? = some nd ∧ (nd.lchild, nd.lflag) = l.ref ∧ (nd.rchild, nd.rflag) = r.ref ∧
      l.leaves ++ r.leaves = List.range' (min i nd.endRange) (max i nd.endRange + 1 - min i nd.endRange) ∧
      l.Encoded nodes ∧ r.Encoded nodes

/-- The child references of all the cells. -/
def childRefs (nodes : List KNode) : List (Nat × Bool) := nodes.flatMap fun nd => [(nd.lchild, nd.lflag), (nd.rchild, nd.rflag)]

section
variable {w n : Nat} {m : Nat → BitVec w}

attribute [local irreducible] kB karrasNode

theorem kB_le (hs : CodesSorted n m) (k : Int) : kB n m k ≤ (w : Int) - 1 := by
  by_cases h : 1 ≤ k ∧ k ≤ (n : Int) - 1
  · have := kB_range hs k.toNat (by omega) (by omega)
    rw [show ((k.toNat : Nat) : Int) = k by omega] at this
    omega
  · rw [kB_out _ h]; omega

/-- Codes whose `z` top bits are zero have common prefixes of at least `z` bits. -/
theorem kB_top (z : Nat) (hz : z ≤ w) (hsmall : ∀ i < n, (m i).toNat < 2 ^ (w - z)) (k : Nat) (h1 : 1 ≤ k) (h2 : k < n) : (z : Int) ≤ kB n m k := by
  rw [kB_in k h1 h2, delta_in _ _ h2]
  have := (le_clz_iff (m (k - 1)) (m k) z hz).2 (by
    rw [Nat.shiftRight_eq_div_pow, Nat.shiftRight_eq_div_pow, Nat.div_eq_of_lt (hsmall _ (by omega)), Nat.div_eq_of_lt (hsmall _ h2)])
  omega

theorem range'_glue (a b s l1 l2 : Nat) (h1 : b = a + l1) (h2 : s = l1 + l2) : List.range' a l1 ++ List.range' b l2 = List.range' a s := by
  subst h1 h2
  have := List.range'_append (s := a) (m := l1) (n := l2) (step := 1)
  rw [Nat.one_mul] at this
  exact this

/-- The cell of the left part `[f..g]` is `g`, if it is not a leaf. -/
theorem left_child (hs : CodesSorted n m) (hn : n ≤ 2 ^ 24 + 1) {f e g : Nat} (H : KSpec n m f e g) (hfg : f < g) :
    ∃ (g' : Nat) (nd : KNode), karrasNode n m g = some nd ∧ KSpec n m f g g' ∧ nd.lchild = g' ∧ nd.rchild = g' + 1 ∧
      nd.lflag = decide (f = g') ∧ nd.rflag = decide (g' + 1 = g) ∧ nd.endRange = f := by
  have hge := H.ge
  have hen := H.en
  obtain ⟨f', e', g', nd, h1, h2, h3, h4, h5, h6, h7⟩ := karrasNode_spec hs hn g (by omega)
  have hb := H.split g (by omega) (by omega) (by omega)
  have hab := (H.above (g + 1 : Nat) (by omega) (by omega)).1
  rcases h7 with ⟨rfl, h8, h9⟩ | ⟨rfl, h8, h9⟩
  · have a1 := h2.fg
    have a2 := h2.ge
    have := (h2.above (g + 1 : Nat) (by omega) (by omega)).1
    omega
  · have a1 := h2.fg
    have a2 := h2.ge
    have hff : f' = f := by
      rcases Nat.lt_trichotomy f' f with hlt | heq | hgt
      · have := (h2.above f (by omega) (by omega)).2
        omega
      · exact heq
      · have := H.split f' (by omega) (by omega) (by omega)
        omega
    subst hff
    exact ⟨g', nd, h1, h2, h3, h4, h5, h6, h8⟩

/-- The cell of the right part `[g+1..e]` is `g+1`, if it is not a leaf. -/
theorem right_child (hs : CodesSorted n m) (hn : n ≤ 2 ^ 24 + 1) {f e g : Nat} (H : KSpec n m f e g) (hfg : g + 1 < e) :
    ∃ (g' : Nat) (nd : KNode), karrasNode n m (g + 1) = some nd ∧ KSpec n m (g + 1) e g' ∧ nd.lchild = g' ∧ nd.rchild = g' + 1 ∧
      nd.lflag = decide (g + 1 = g') ∧ nd.rflag = decide (g' + 1 = e) ∧ nd.endRange = e := by
  have hge := H.fg
  have hen := H.en
  obtain ⟨f', e', g', nd, h1, h2, h3, h4, h5, h6, h7⟩ := karrasNode_spec hs hn (g + 1) (by omega)
  have hb := H.split (g + 1 + 1 : Nat) (by omega) (by omega) (by omega)
  have hab := (H.above (g + 1 : Nat) (by omega) (by omega)).2
  rcases h7 with ⟨hf, h8, h9⟩ | ⟨he, h8, h9⟩
  · subst hf
    have a1 := h2.fg
    have a2 := h2.ge
    have hee : e' = e := by
      rcases Nat.lt_trichotomy e' e with hlt | heq | hgt
      · have := H.split (e' + 1 : Nat) (by omega) (by omega) (by omega)
        omega
      · exact heq
      · have := (h2.above (e + 1 : Nat) (by omega) (by omega)).1
        omega
    subst hee
    exact ⟨g', nd, h1, h2, h3, h4, h5, h6, h8⟩
  · subst he
    have a1 := h2.fg
    have a2 := h2.ge
    have := (h2.above (g + 1 : Nat) (by omega) (by omega)).2
    omega

/-- The subtree that covers `[f..f+len]`. -/
theorem subtree (hs : CodesSorted n m) (hn : n ≤ 2 ^ 24 + 1) (nodes : List KNode)
    (hnodes : ∀ i : Nat, i + 1 < n → nodes[i]? = karrasNode n m i) : ∀ (len f i a : Nat), f + len < n →
    ((i = f ∧ a = f) ∨ (i = f + len ∧ a = f + 1)) →
    (len = 0 ∨ ∃ g nd, i + 1 < n ∧ karrasNode n m i = some nd ∧ KSpec n m f (f + len) g ∧ nd.lchild = g ∧ nd.rchild = g + 1 ∧
        nd.lflag = decide (f = g) ∧ nd.rflag = decide (g + 1 = f + len) ∧
        ((i = f ∧ nd.endRange = f + len) ∨ (i = f + len ∧ nd.endRange = f))) →
    ∃ T : KTree, T.Encoded nodes ∧ T.ref = (i, decide (len = 0)) ∧ T.leaves = List.range' f (len + 1) ∧
      T.internals.Perm (List.range' a len) ∧
      (len ≠ 0 → ∃ k : Nat, f < k ∧ k ≤ f + len ∧ (T.depth : Int) ≤ w - kB n m k) ∧
      (T.depth : Int) ≤ w - 1 - max (kB n m f) (kB n m (f + len + 1 : Nat)) := by
  intro len
  induction len using Nat.strong_induction_on with
  | _ len ih =>
    intro f i a hlen hi hnd
    by_cases h0 : len = 0
    · subst h0
      refine ⟨.leaf f, trivial, ?_, rfl, List.Perm.refl _, fun h => absurd rfl h, ?_⟩
      · have : i = f := by clear hnd; omega
        rw [this]; rfl
      · have := kB_le hs (m := m) f
        have := kB_le hs (m := m) (f + 0 + 1 : Nat)
        show ((0 : Nat) : Int) ≤ _
        omega
    · rcases hnd with hnd | ⟨g, nd, hin, h1, H, h3, h4, h5, h6, h7⟩
      · exact absurd hnd h0
      have hfg := H.fg
      have hge := H.ge
      -- left
      have hl := ih (g - f) (by omega) f g (f + 1) (by omega) (Or.inr ⟨by omega, rfl⟩) (by
        by_cases hz : f = g
        · left; omega
        · right
          obtain ⟨g', nd', b1, b2, b3, b4, b5, b6, b7⟩ := left_child hs hn H (by omega)
          rw [show f + (g - f) = g by omega]
          exact ⟨g', nd', by omega, b1, b2, b3, b4, b5, b6, Or.inr ⟨rfl, b7⟩⟩)
      have hr := ih (f + len - (g + 1)) (by omega) (g + 1) (g + 1) (g + 1) (by omega) (Or.inl ⟨rfl, rfl⟩) (by
        by_cases hz : g + 1 = f + len
        · left; omega
        · right
          obtain ⟨g', nd', b1, b2, b3, b4, b5, b6, b7⟩ := right_child hs hn H (by omega)
          rw [show g + 1 + (f + len - (g + 1)) = f + len by omega]
          exact ⟨g', nd', by omega, b1, b2, b3, b4, b5, b6, Or.inl ⟨rfl, b7⟩⟩)
      obtain ⟨L, l1, l2, l3, l4, lx, l5⟩ := hl
      obtain ⟨R, r1, r2, r3, r4, rx, r5⟩ := hr
      clear lx rx
      have hleaves : L.leaves ++ R.leaves = List.range' f (len + 1) := by
        rw [l3, r3]
        exact range'_glue f (g + 1) (len + 1) _ _ (by omega) (by omega)
      refine ⟨.node i L R, ⟨nd, ?_, ?_, ?_, ?_, l1, r1⟩, ?_, hleaves, ?_, ?_, ?_⟩
      · rw [hnodes i hin]; exact h1
      · rw [l2, h3, h5]
        congr 1
        rw [Bool.eq_iff_iff, decide_eq_true_eq, decide_eq_true_eq]; omega
      · rw [r2, h4, h6]
        congr 1
        rw [Bool.eq_iff_iff, decide_eq_true_eq, decide_eq_true_eq]; omega
      · rw [hleaves]
        rcases h7 with ⟨rfl, h7⟩ | ⟨rfl, h7⟩
        · rw [h7, Nat.min_eq_left (by omega), Nat.max_eq_right (by omega)]; congr 1; omega
        · rw [h7, Nat.min_eq_right (by omega), Nat.max_eq_left (by omega)]; congr 1; omega
      · show (i, false) = _
        rw [decide_eq_false h0]
      · show (i :: (L.internals ++ R.internals)).Perm _
        refine ((l4.append r4).cons i).trans ?_
        have hglue : List.range' (f + 1) (g - f) ++ List.range' (g + 1) (f + len - (g + 1)) = List.range' (f + 1) (len - 1) :=
          range'_glue (f + 1) (g + 1) _ _ _ (by omega) (by omega)
        rw [hglue]
        rcases hi with ⟨rfl, rfl⟩ | ⟨rfl, rfl⟩
        · obtain ⟨k, rfl⟩ : ∃ k, len = k + 1 := ⟨len - 1, by omega⟩
          rw [List.range'_succ]
          exact List.Perm.refl _
        · obtain ⟨k, rfl⟩ : ∃ k, len = k + 1 := ⟨len - 1, by omega⟩
          rw [List.range'_concat, Nat.one_mul, show f + 1 + k = f + (k + 1) by omega]
          exact (List.perm_append_comm (l₁ := [f + (k + 1)]) (l₂ := List.range' (f + 1) k))
      · intro _
        refine ⟨g + 1, by omega, by omega, ?_⟩
        have hab := H.above (g + 1 : Nat) (by omega) (by omega)
        rw [show f + (g - f) + 1 = g + 1 by omega] at l5
        rw [show g + 1 + (f + len - (g + 1)) + 1 = f + len + 1 by omega] at r5
        show ((max L.depth R.depth + 1 : Nat) : Int) ≤ _
        omega
      · have hab := H.above (g + 1 : Nat) (by omega) (by omega)
        rw [show f + (g - f) + 1 = g + 1 by omega] at l5
        rw [show g + 1 + (f + len - (g + 1)) + 1 = f + len + 1 by omega] at r5
        show ((max L.depth R.depth + 1 : Nat) : Int) ≤ _
        omega

theorem refs_tree (nodes : List KNode) : ∀ T : KTree, T.Encoded nodes →
    (T.ref :: T.internals.flatMap fun i => match nodes[i]? with
      | some nd => [(nd.lchild, nd.lflag), (nd.rchild, nd.rflag)]
      | none => []).Perm (T.leaves.map (·, true) ++ T.internals.map (·, false)) := by
  intro T
  induction T with
  | leaf k => intro _; exact List.Perm.refl _
  | node i l r ihl ihr =>
    rintro ⟨nd, h1, h2, h3, _, h4, h5⟩
    have a := ihl h4
    have b := ihr h5
    simp only [KTree.internals, KTree.leaves, KTree.ref, List.flatMap_cons, List.flatMap_append, List.map_append, List.map_cons, h1]
    rw [h2, h3]
    generalize (l.internals.flatMap _) = X at *
    generalize (r.internals.flatMap _) = Y at *
    have e1 : ((i, false) :: ([l.ref, r.ref] ++ (X ++ Y))).Perm ((i, false) :: ((l.ref :: X) ++ (r.ref :: Y))) := by
      refine List.Perm.cons _ (List.Perm.cons _ ?_)
      exact (List.perm_middle (a := r.ref) (l₁ := X) (l₂ := Y)).symm
    refine e1.trans ?_
    refine ((a.append b).cons _).trans ?_
    generalize l.leaves.map (·, true) = A
    generalize r.leaves.map (·, true) = B
    generalize l.internals.map (·, false) = C
    generalize r.internals.map (·, false) = D
    have e2 : (A ++ C ++ (B ++ D)).Perm (A ++ B ++ (C ++ D)) := by
      rw [List.append_assoc, List.append_assoc]
      refine List.Perm.append_left A ?_
      rw [← List.append_assoc, ← List.append_assoc]
      exact List.Perm.append_right D List.perm_append_comm
    refine (e2.cons _).trans ?_
    exact (List.perm_middle (a := (i, false)) (l₁ := A ++ B) (l₂ := C ++ D)).symm

end
end Shamrock
