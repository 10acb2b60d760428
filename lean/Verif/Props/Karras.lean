import Verif.Proof.KarrasTree
import Verif.Proof.Scan
/-! Theorems about the radix tree construction: C05, C06. -/
namespace Shamrock

attribute [local irreducible] kB karrasNode

variable {w n : Nat} {m : Nat → BitVec w}

/-- C05. For strictly increasing codes (up to 2^24 + 1 of them) the construction ends and its output encodes a binary tree rooted at cell
0 whose leaves are exactly all the codes in order, whose internal cells are exactly the `n - 1` computed ones, in which each cell covers
the leaves between its index and its end range, and whose depth is at most the bit width minus the number `z` of leading zero bits common
to all codes. -/
theorem C05_karras_tree (hs : ∀ i j, i < j → j < n → (m i).toNat < (m j).toNat) (h2 : 2 ≤ n) (hn : n ≤ 2 ^ 24 + 1)
    (z : Nat) (hz : z ≤ w) (hsmall : ∀ i < n, (m i).toNat < 2 ^ (w - z)) :
    ∃ (nodes : List KNode) (T : KTree), karrasTree n m = some nodes ∧ nodes.length = n - 1 ∧ T.Encoded nodes ∧ T.ref = (0, false) ∧
      T.leaves = List.range n ∧ T.internals.Perm (List.range (n - 1)) ∧ T.depth + z ≤ w := by
  have hs' : CodesSorted n m := hs
  let g : Nat → KNode := fun i => (karrasNode n m i).getD ⟨0, 0, false, 0, false⟩
  have hg : ∀ i < n - 1, karrasNode n m i = some (g i) := by
    intro i hi
    obtain ⟨f, e, gg, nd, h, _⟩ := karrasNode_spec hs' hn i (by omega)
    show _ = some ((karrasNode n m i).getD _)
    rw [h]; rfl
  have hnodes := mapM_range_some (n - 1) (karrasNode n m) g hg
  have hget : ∀ i : Nat, i + 1 < n → ((List.range (n - 1)).map g)[i]? = karrasNode n m i := by
    intro i hi
    rw [hg i (by omega), List.getElem?_map, List.getElem?_range (by omega)]; rfl
  obtain ⟨f, e, gg, nd, h1, H, h3, h4, h5, h6, h7⟩ := karrasNode_spec hs' hn 0 (by omega)
  have hroot : f = 0 ∧ e = n - 1 ∧ nd.endRange = e := by
    have a1 := H.fg
    have a2 := H.ge
    have a3 := H.en
    rcases h7 with ⟨hf, h8, h9⟩ | ⟨he, h8, h9⟩
    · refine ⟨hf.symm, ?_, h8⟩
      by_contra hc
      subst hf
      rw [kB_out ((0 : Nat) : Int) (by omega)] at h9
      have := kB_range hs' (e + 1) (by omega) (by omega)
      omega
    · omega
  obtain ⟨rfl, rfl, hend⟩ := hroot
  have hn0 : n - 1 ≠ 0 := by omega
  obtain ⟨T, t1, t2, t3, t4, t5, t6⟩ := subtree hs' hn _ hget (n - 1) 0 0 0 (by omega) (Or.inl ⟨rfl, rfl⟩)
    (Or.inr ⟨gg, nd, by omega, h1, by rw [Nat.zero_add]; exact H, h3, h4, h5, by rw [Nat.zero_add]; exact h6,
      Or.inl ⟨rfl, by rw [Nat.zero_add]; exact hend⟩⟩)
  obtain ⟨k, k1, k2, k3⟩ := t5 hn0
  clear t5
  refine ⟨_, T, hnodes, by rw [List.length_map, List.length_range], t1, ?_, ?_, ?_, ?_⟩
  · rw [t2, decide_eq_false (by omega)]
  · rw [t3, show n - 1 + 1 = n by omega, List.range_eq_range']
  · rw [List.range_eq_range']; exact t4
  · have := kB_top (n := n) (m := m) z hz hsmall k (by omega) (by omega)
    omega

/-- C05. Every leaf and every internal cell except the root is the child of exactly one cell: the child references of the cells, with the
root added, list each leaf and each internal cell exactly once. -/
theorem C05_unique_parent (hs : ∀ i j, i < j → j < n → (m i).toNat < (m j).toNat) (h2 : 2 ≤ n) (hn : n ≤ 2 ^ 24 + 1) :
    ∃ nodes : List KNode, karrasTree n m = some nodes ∧
      ((0, false) :: childRefs nodes).Perm ((List.range n).map (·, true) ++ (List.range (n - 1)).map (·, false)) := by
  obtain ⟨nodes, T, h1, h3, h4, h5, h6, h7, _⟩ := C05_karras_tree hs h2 hn 0 (by omega) (fun i _ => (m i).isLt)
  refine ⟨nodes, h1, ?_⟩
  have h := refs_tree nodes T h4
  rw [h5, h6] at h
  have hp := (h7.map (·, false)).append_left ((List.range n).map (·, true))
  refine List.Perm.trans ?_ (h.trans hp)
  refine List.Perm.cons _ ?_
  refine List.Perm.trans ?_ (h7.symm.flatMap_right _)
  rw [← h3]
  apply List.Perm.of_eq
  unfold childRefs
  clear * -
  induction nodes using List.reverseRecOn with
  | nil => rfl
  | append_singleton l a ih =>
    rw [List.flatMap_append, List.length_append, List.length_singleton, List.range_succ, List.flatMap_append, ih]
    congr 1
    · apply List.flatMap_congr
      intro x hx
      rw [List.getElem?_append_left (List.mem_range.1 hx)]
    · simp

/-- A concrete case: 6 codes of 8 bits. -/
example : karrasTree 6 (fun k => (#[1#8, 2#8, 4#8, 5#8, 19#8, 24#8])[k]!) =
    some [⟨5, 3, false, 4, false⟩, ⟨0, 0, true, 1, true⟩, ⟨3, 2, true, 3, true⟩, ⟨0, 1, false, 2, false⟩, ⟨5, 4, true, 5, true⟩] := by
  decide +kernel

/-- A million codes. -/
example : ∃ nodes : List KNode, karrasTree 1000000 (fun k => BitVec.ofNat 32 (3 * k)) = some nodes ∧
    ((0, false) :: childRefs nodes).Perm ((List.range 1000000).map (·, true) ++ (List.range 999999).map (·, false)) :=
  C05_unique_parent (by intro i j h1 h2; rw [BitVec.toNat_ofNat, BitVec.toNat_ofNat, Nat.mod_eq_of_lt (by omega), Nat.mod_eq_of_lt (by omega)]; omega) (by omega) (by omega)

/-- C06, true part. Up to 2^24 + 1 codes, the split of each cell is the unique position of the smallest common prefix of its range:
the two children have strictly longer common prefixes than the cell itself. -/
theorem C06_split_partial (hs : ∀ i j, i < j → j < n → (m i).toNat < (m j).toNat) (hn : n ≤ 2 ^ 24 + 1) (i : Nat) (hi : i + 1 < n) :
    ∃ nd : KNode, karrasNode n m i = some nd ∧ min i nd.endRange ≤ nd.lchild ∧ nd.lchild < max i nd.endRange ∧ max i nd.endRange < n ∧
      nd.rchild = nd.lchild + 1 ∧
      ∀ k, min i nd.endRange < k → k ≤ max i nd.endRange → k ≠ nd.lchild + 1 →
        clz (m nd.lchild ^^^ m (nd.lchild + 1)) < clz (m (k - 1) ^^^ m k) := by
  obtain ⟨f, e, g, nd, h1, H, h3, h4, h5, h6, h7⟩ := karrasNode_spec (m := m) hs hn i hi
  have a1 := H.fg
  have a2 := H.ge
  have a3 := H.en
  have hmm : min i nd.endRange = f ∧ max i nd.endRange = e := by
    rcases h7 with ⟨hf, h8, h9⟩ | ⟨he, h8, h9⟩
    · rw [h8, hf]; exact ⟨Nat.min_eq_left (by omega), Nat.max_eq_right (by omega)⟩
    · rw [h8, he]; exact ⟨Nat.min_eq_right (by omega), Nat.max_eq_left (by omega)⟩
  refine ⟨nd, h1, ?_, ?_, ?_, ?_, ?_⟩
  · rw [hmm.1, h3]; exact a1
  · rw [hmm.2, h3]; exact a2
  · rw [hmm.2]; exact a3
  · rw [h3]; exact h4
  · rw [hmm.1, hmm.2, h3]
    intro k k1 k2 k3
    have := H.split k (by omega) (by omega) (by omega)
    rw [kB_in (g + 1) (by omega) (by omega), kB_in k (by omega) (by omega), delta_in _ _ (by omega), delta_in _ _ (by omega),
      Nat.add_sub_cancel] at this
    exact_mod_cast this

theorem mapM_some_get {α β} (f : α → Option β) : ∀ (l : List α) (r : List β), l.mapM f = some r → ∀ (i : Nat) (a : α), l[i]? = some a →
    ∃ b, f a = some b ∧ r[i]? = some b := by
  intro l
  induction l with
  | nil => intro r _ i a h; simp at h
  | cons x l ih =>
    intro r hr i a h
    rw [List.mapM_cons] at hr
    simp only [Option.bind_eq_bind, Option.bind_eq_some_iff, Option.pure_def, Option.some.injEq] at hr
    obtain ⟨b, hb, r', hr', rfl⟩ := hr
    cases i with
    | zero => exact ⟨b, by simp at h; rw [← h]; exact hb, rfl⟩
    | succ i => exact ih r' hr' i a (by simpa using h)

/-- 2^24 + 2 codes. -/
def badCodes (k : Nat) : BitVec 32 := BitVec.ofNat 32 (if k ≤ 2 ^ 24 then k else 2 ^ 25)

theorem badCodes_sorted : ∀ i j, i < j → j < 2 ^ 24 + 2 → (badCodes i).toNat < (badCodes j).toNat := by
  intro i j hij hj
  unfold badCodes
  rw [BitVec.toNat_ofNat, BitVec.toNat_ofNat, if_pos (by omega)]
  split <;> omega

/-- C06 is false above 2^24 + 1 leaves: for some strictly increasing array of 2^24 + 2 codes the output does not encode a tree over all
the leaves (the root splits at the wrong place because the step `ceil(l / 2)` is rounded in `f32`). -/
theorem C06_split_f32_defect : ∃ (n : Nat) (m : Nat → BitVec 32), n ≤ 2 ^ 32 ∧
    (∀ i j, i < j → j < n → (m i).toNat < (m j).toNat) ∧
    ∀ (nodes : List KNode) (T : KTree), karrasTree n m = some nodes → T.Encoded nodes → T.ref = (0, false) → T.leaves ≠ List.range n := by
  refine ⟨2 ^ 24 + 2, badCodes, by omega, badCodes_sorted, ?_⟩
  intro nodes T hT hE hR hL
  have n0 : karrasNode (2 ^ 24 + 2) badCodes 0 = some ⟨2 ^ 24 + 1, 2 ^ 24 - 1, false, 2 ^ 24, false⟩ := by decide +kernel
  have n1 : karrasNode (2 ^ 24 + 2) badCodes (2 ^ 24) = some ⟨0, 2 ^ 24 - 1, false, 2 ^ 24, true⟩ := by decide +kernel
  have hget : ∀ (i : Nat) (nd : KNode), i < 2 ^ 24 + 1 → nodes[i]? = some nd → karrasNode (2 ^ 24 + 2) badCodes i = some nd := by
    intro i nd hi h
    obtain ⟨b, h1, h2⟩ := mapM_some_get _ _ _ hT i i (by rw [List.getElem?_range (by omega)])
    rw [h1, ← h2, h]
  cases T with
  | leaf k => simp [KTree.ref] at hR
  | node i l r =>
    obtain ⟨nd, e1, e2, e3, e4, e5, e6⟩ := hE
    obtain rfl : i = 0 := by simpa [KTree.ref] using hR
    have := hget 0 nd (by omega) e1
    rw [n0, Option.some.injEq] at this
    subst this
    cases r with
    | leaf k => simp [KTree.ref] at e3
    | node j rl rr =>
      obtain rfl : 2 ^ 24 = j := by simpa [KTree.ref] using e3
      obtain ⟨nd, f1, f2, f3, f4, f5, f6⟩ := e6
      have := hget (2 ^ 24) nd (by omega) f1
      rw [n1, Option.some.injEq] at this
      subst this
      have m0 : 0 ∈ (KTree.node (2 ^ 24) rl rr).leaves := by
        show 0 ∈ rl.leaves ++ rr.leaves
        rw [f4, List.mem_range'_1]
        exact ⟨by simp, by simp⟩
      have hl0 : l.leaves.length ≠ 0 := by
        clear * -
        induction l with
        | leaf k => simp [KTree.leaves]
        | node i a b iha ihb => simp only [KTree.leaves, List.length_append]; omega
      have hcat : l.leaves ++ (KTree.node (2 ^ 24) rl rr).leaves = List.range (2 ^ 24 + 2) := hL
      generalize (KTree.node (2 ^ 24) rl rr).leaves = R at m0 hcat
      cases hla : l.leaves with
      | nil => rw [hla] at hl0; exact hl0 rfl
      | cons a t =>
        rw [hla] at hcat
        have hnd : (a :: t ++ R).Nodup := by rw [hcat]; exact List.nodup_range
        have ha : a = 0 := by
          have : (a :: t ++ R)[0]? = some 0 := by rw [hcat, List.getElem?_range (by omega)]
          simpa using this
        rw [List.cons_append, List.nodup_cons] at hnd
        exact hnd.1 (List.mem_append_right _ (ha ▸ m0))

end Shamrock
