import Verif.Props.TreeOps
import Verif.Props.MortonCell
import Mathlib.Tactic.IntervalCases
/-! The cells of the Karras tree are the radix cells of the codes. -/
namespace Shamrock

attribute [local irreducible] kB karrasNode

variable {w n : Nat} {m : Nat → BitVec w}

/-- Neighbouring codes share `p` bits iff their boundary value is at least `p`. -/
theorem kB_prefix (k p : Nat) (h1 : 1 ≤ k) (h2 : k < n) (hp : p ≤ w) :
    (p : Int) ≤ kB n m k ↔ (m (k - 1)).toNat >>> (w - p) = (m k).toNat >>> (w - p) := by
  rw [kB_in k h1 h2, delta_in _ _ h2, ← le_clz_iff _ _ p hp]
  omega

/-- C05 (radix cells). In the tree built from strictly increasing codes every cell is a radix cell: the codes under it are exactly all the
codes that share some number of leading bits with any one of them. -/
theorem C05_radix_cells (hs : ∀ i j, i < j → j < n → (m i).toNat < (m j).toNat) (hn : n ≤ 2 ^ 24 + 1) (nodes : List KNode)
    (hk : karrasTree n m = some nodes) (T : KTree) (hT : T.Encoded nodes) (hl : T.leaves = List.range n)
    (hint : T.internals.Perm (List.range (n - 1))) (S : KTree) (hS : S ∈ T.subtrees) :
    ∃ s ≤ w, ∀ k ∈ S.leaves, ∀ j < n, j ∈ S.leaves ↔ (m j).toNat >>> s = (m k).toNat >>> s := by
  have hs' : CodesSorted n m := hs
  have hmono : ∀ i j, i ≤ j → j < n → (m i).toNat ≤ (m j).toNat := by
    intro i j hij hj
    rcases Nat.eq_or_lt_of_le hij with rfl | h
    · exact le_refl _
    · exact le_of_lt (hs _ _ h hj)
  cases S with
  | leaf k0 =>
    have hk0 : k0 < n := by
      have := (leaves_subtrees T k0).1 hS
      rw [hl] at this; exact List.mem_range.1 this
    refine ⟨0, Nat.zero_le _, ?_⟩
    intro k hkm j hj
    rw [KTree.leaves, List.mem_singleton] at hkm
    rw [KTree.leaves, List.mem_singleton, Nat.shiftRight_zero, Nat.shiftRight_zero]
    subst hkm
    constructor
    · rintro rfl; rfl
    · intro h
      by_contra hne
      rcases Nat.lt_or_gt_of_ne hne with h1 | h1
      · have := hs _ _ h1 hk0; omega
      · have := hs _ _ h1 hj; omega
  | node i l r =>
    have hi : i + 1 < n := by
      have := hint.mem_iff.1 ((internals_subtrees T i).2 ⟨l, r, hS⟩)
      have := List.mem_range.1 this
      omega
    obtain ⟨nd, n1, n2, n3, n4, _, _⟩ := subtrees_encoded T _ hT hS
    obtain ⟨f, e, g, nd', k1, H, k3, k4, k5, k6, k7⟩ := karrasNode_spec hs' hn i hi
    have hnd : nd = nd' := by
      unfold karrasTree at hk
      obtain ⟨b, b1, b2⟩ := mapM_some_get _ _ _ hk i i (by rw [List.getElem?_range (by omega)])
      rw [k1] at b1
      rw [n1] at b2
      rw [Option.some.injEq] at b1 b2
      rw [b2, b1]
    subst hnd
    have hfg := H.fg
    have hge := H.ge
    have hen := H.en
    have hmem : ∀ k, k ∈ (KTree.node i l r).leaves ↔ f ≤ k ∧ k ≤ e := by
      intro k
      show k ∈ l.leaves ++ r.leaves ↔ _
      rw [n4, List.mem_range'_1]
      rcases k7 with ⟨rfl, h8, _⟩ | ⟨rfl, h8, _⟩
      · rw [h8, Nat.min_eq_left (by omega), Nat.max_eq_right (by omega)]; omega
      · rw [h8, Nat.min_eq_right (by omega), Nat.max_eq_left (by omega)]; omega
    obtain ⟨p0, p1⟩ := kB_range hs' (g + 1) (by omega) (by omega)
    obtain ⟨p, hp⟩ : ∃ p : Nat, (p : Int) = kB n m (g + 1 : Nat) := ⟨(kB n m (g + 1 : Nat)).toNat, by omega⟩
    have hpw : p ≤ w := by omega
    have hin : ∀ d, f + d ≤ e → (m (f + d)).toNat >>> (w - p) = (m f).toNat >>> (w - p) := by
      intro d
      induction d with
      | zero => intro _; rfl
      | succ d ih =>
        intro hd
        rw [← ih (by omega)]
        have := (kB_prefix (n := n) (m := m) (f + (d + 1)) p (by omega) (by omega) hpw).1 (by
          by_cases hg : f + (d + 1) = g + 1
          · rw [hg]; omega
          · have := H.split (f + (d + 1) : Nat) (by omega) (by omega) (by omega)
            omega)
        rw [show f + (d + 1) - 1 = f + d by omega] at this
        exact this.symm
    obtain ⟨a1, a2⟩ := H.above (g + 1 : Nat) (by omega) (by omega)
    have hout : ∀ j < n, (m j).toNat >>> (w - p) = (m f).toNat >>> (w - p) → f ≤ j ∧ j ≤ e := by
      intro j hj hjf
      constructor
      · by_contra hlt
        have hb := prefix_between (c := (m (f - 1)).toNat) hjf
          (le_trans (min_le_left _ _) (hmono j (f - 1) (by omega) (by omega))) (le_trans (hmono (f - 1) f (by omega) (by omega)) (le_max_right _ _))
        have := (kB_prefix (n := n) (m := m) f p (by omega) (by omega) hpw).2 (hb.trans hjf)
        omega
      · by_contra hlt
        have hje : (m e).toNat >>> (w - p) = (m j).toNat >>> (w - p) := by
          have := hin (e - f) (by omega)
          rw [show f + (e - f) = e by omega] at this
          rw [this, hjf]
        have hb := prefix_between (c := (m (e + 1)).toNat) hje
          (le_trans (min_le_left _ _) (hmono e (e + 1) (by omega) (by omega))) (le_trans (hmono (e + 1) j (by omega) (by omega)) (le_max_right _ _))
        have := (kB_prefix (n := n) (m := m) (e + 1) p (by omega) (by omega) hpw).2 (by
          rw [show e + 1 - 1 = e by omega]; exact hb.symm)
        omega
    refine ⟨w - p, by omega, ?_⟩
    intro k hkm j hj
    rw [hmem] at hkm
    rw [hmem]
    have hkf := hin (k - f) (by omega)
    rw [show f + (k - f) = k by omega] at hkf
    rw [hkf]
    constructor
    · rintro ⟨j1, j2⟩
      have := hin (j - f) (by omega)
      rwa [show f + (j - f) = j by omega] at this
    · exact hout j hj

/-- A concrete case: six codes of 8 bits; the cell 3 (codes 1, 2, 4, 5) is the one of the codes below 8. -/
example : ∃ s ≤ 8, ∀ k ∈ [0, 1, 2, 3], ∀ j < 6, j ∈ [0, 1, 2, 3] ↔
    (([1#8, 2#8, 4#8, 5#8, 19#8, 24#8].getD j 0#8).toNat) >>> s = (([1#8, 2#8, 4#8, 5#8, 19#8, 24#8].getD k 0#8).toNat) >>> s :=
  C05_radix_cells (n := 6) (m := fun k => [1#8, 2#8, 4#8, 5#8, 19#8, 24#8].getD k 0#8)
    (by intro i j hij hj; interval_cases j <;> interval_cases i <;> decide) (by decide)
    [⟨5, 3, false, 4, false⟩, ⟨0, 0, true, 1, true⟩, ⟨3, 2, true, 3, true⟩, ⟨0, 1, false, 2, false⟩, ⟨5, 4, true, 5, true⟩] (by decide +kernel)
    (.node 0 (.node 3 (.node 1 (.leaf 0) (.leaf 1)) (.node 2 (.leaf 2) (.leaf 3))) (.node 4 (.leaf 4) (.leaf 5)))
    ⟨_, rfl, rfl, rfl, rfl, ⟨_, rfl, rfl, rfl, rfl, ⟨_, rfl, rfl, rfl, rfl, trivial, trivial⟩, ⟨_, rfl, rfl, rfl, rfl, trivial, trivial⟩⟩,
      ⟨_, rfl, rfl, rfl, rfl, trivial, trivial⟩⟩ rfl (by decide)
    (.node 3 (.node 1 (.leaf 0) (.leaf 1)) (.node 2 (.leaf 2) (.leaf 3))) (by simp [KTree.subtrees])

end Shamrock
