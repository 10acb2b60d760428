import Verif.Proof.Karras
/-! What one work item of the Karras construction writes. -/
namespace Shamrock
section
variable {w n : Nat} {m : Nat → BitVec w}

theorem splitSearch_spec (test : Nat → Bool) (l S : Nat) (hl : l ≤ 2 ^ 24) (hS : S < l)
    (ht : ∀ x, 1 ≤ x → x ≤ 2 ^ 25 → (test x = true ↔ x ≤ S)) : splitLoop test l 32 1 0 = some S :=
  splitLoop_spec test l S hl hS ht 32 0 0 (by omega) (by omega) (by rw [Nat.pow_zero]; omega) (by rw [Nat.pow_zero]; omega)
    (Nat.le_trans hl (by decide))

attribute [local irreducible] lmaxLoop findEndLoop splitLoop wrapI32 wrapU32 karrasDelta kB

theorem karrasSplit_eq (i : Nat) (d : Int) (l s j g : Nat) (hj : wrapU32 ((i : Int) + l * d) = j)
    (h1 : splitLoop (fun x : Nat => decide (karrasDelta n m i (wrapI32 j) < karrasDelta n m i (wrapI32 ((i : Int) + x * d)))) l 32 1 0 = some s)
    (hg : wrapU32 ((i : Int) + s * d + min d 0) = g) :
    karrasSplit n m i d l = some { endRange := j, lchild := g, lflag := min i j == g, rchild := wrapU32 (g + 1), rflag := max i j == wrapU32 (g + 1) } := by
  subst hj hg
  unfold karrasSplit
  dsimp only
  rw [h1, Option.map_some]

/-- Range `[f..e]`, split after `g`. -/
structure KSpec (n : Nat) (m : Nat → BitVec w) (f e g : Nat) : Prop where
  fg : f ≤ g
  ge : g < e
  en : e < n
  above : ∀ k : Int, f < k → k ≤ e → kB n m f < kB n m k ∧ kB n m (e + 1 : Nat) < kB n m k
  split : ∀ k : Int, f < k → k ≤ e → k ≠ (g + 1 : Nat) → kB n m (g + 1 : Nat) < kB n m k

theorem karrasNode_spec (hs : CodesSorted n m) (hn : n ≤ 2 ^ 24 + 1) (i : Nat) (hi : i + 1 < n) :
    ∃ (f e g : Nat) (nd : KNode), karrasNode n m i = some nd ∧ KSpec n m f e g ∧
      nd.lchild = g ∧ nd.rchild = g + 1 ∧ nd.lflag = decide (f = g) ∧ nd.rflag = decide (g + 1 = e) ∧
      ((i = f ∧ nd.endRange = e ∧ kB n m (e + 1 : Nat) ≤ kB n m f) ∨ (i = e ∧ nd.endRange = f ∧ kB n m f ≤ kB n m (e + 1 : Nat))) := by
  rcases karrasRange_spec hs (by omega) i hi with ⟨l, hr, hl1, hl2, hlt, hab, hend⟩ | ⟨l, hr, hl1, hl2, hlt, hab, hend⟩
  · -- to the right
    have hj : wrapU32 ((i : Int) + l * 1) = i + l := by
      rw [show (i : Int) + l * 1 = ((i + l : Nat) : Int) by omega]; exact wrapU32_nat (by omega)
    have hge : ∀ y : Nat, 0 < y → i + y < n → 0 ≤ karrasDelta n m i ((i + y : Nat) : Int) := by
      intro y _ hy; rw [delta_in _ _ hy]; omega
    generalize hdn : karrasDelta n m i ((i + l : Nat) : Int) = dn
    have hdn0 : 0 ≤ dn := by rw [← hdn]; exact hge l (by omega) hl2
    have hmin : ∀ k : Int, i < k → k ≤ i + l → dn ≤ kB n m k := by
      have := (delta_right hs i (by omega) (dn - 1) (by omega) ((i + l : Nat) : Int) (by omega)).1 (by rw [hdn]; omega)
      intro k h1 h2
      have := this k h1 (by omega)
      omega
    have hnot : ¬ ∀ k : Int, i < k → k ≤ i + l → dn < kB n m k := by
      intro hc
      have := (delta_right hs i (by omega) dn (by omega) ((i + l : Nat) : Int) (by omega)).2 (fun k a b => hc k a (by omega))
      omega
    let P : Nat → Prop := fun x => ∀ k : Int, i < k → k ≤ i + x → dn < kB n m k
    obtain ⟨S, hS1, hS2⟩ := exists_last P (fun x h k a b => h k a (by omega)) (fun k a b => by omega) l hnot
    have htest : ∀ x : Nat, 1 ≤ x → x ≤ 2 ^ 25 →
        (decide (karrasDelta n m i (wrapI32 ((i + l : Nat) : Int)) < karrasDelta n m i (wrapI32 ((i : Int) + x * 1))) = true ↔ x ≤ S) := by
      intro x h1 h2
      rw [decide_eq_true_eq, wrapI32_id (x := ((i + l : Nat) : Int)) (by omega) (by omega), hdn,
        wrapI32_id (by omega) (by omega), delta_right hs i (by omega) _ (by omega) _ (by omega), ← hS2 x]
      simp only [P, Int.mul_one]
    have hsp := splitSearch_spec _ l S (by omega) hS1 htest
    have hg : wrapU32 ((i : Int) + S * 1 + min (1 : Int) 0) = i + S := by
      rw [show (i : Int) + S * 1 + min (1 : Int) 0 = ((i + S : Nat) : Int) by omega]; exact wrapU32_nat (by omega)
    have hg1 : wrapU32 (((i + S : Nat) : Int) + 1) = i + S + 1 := by
      rw [show ((i + S : Nat) : Int) + 1 = ((i + S + 1 : Nat) : Int) by omega]; exact wrapU32_nat (by omega)
    have hnode := karrasSplit_eq (n := n) (m := m) i 1 l S (i + l) (i + S) hj hsp hg
    rw [hg1] at hnode
    have hb : karrasNode n m i = (karrasRange n m i).bind fun r => karrasSplit n m i r.1 r.2 := rfl
    rw [hr, Option.bind_some] at hb
    have hnode' := hb.trans hnode
    have hPS : P S := (hS2 S).2 (Nat.le_refl _)
    have hv : kB n m (i + S + 1 : Nat) = dn := by
      have h1 := hmin (i + S + 1 : Nat) (by omega) (by omega)
      by_contra hc
      have : P (S + 1) := by
        intro k h2 h3
        by_cases hk : k = (i + S + 1 : Nat)
        · rw [hk]; omega
        · exact hPS k h2 (by omega)
      have := (hS2 (S + 1)).1 this
      omega
    refine ⟨i, i + l, i + S, _, hnode', ⟨by omega, by omega, hl2, ?_, ?_⟩, rfl, rfl, ?_, ?_, Or.inl ⟨rfl, rfl, hend⟩⟩
    · intro k h1 h2
      have := hab k h1 (by omega)
      exact ⟨this, by omega⟩
    · intro k h1 h2 h3
      rw [hv]
      have h4 := hmin k h1 (by omega)
      by_contra hc
      have h5 : kB n m k = dn := by omega
      by_cases h6 : k < (i + S + 1 : Nat)
      · have := hPS k h1 (by omega); omega
      · obtain ⟨r, h7, h8, h9⟩ := kB_unique hs (i + S + 1) k.toNat (by omega) (by omega) (by omega)
          (by rw [hv, show ((k.toNat : Nat) : Int) = k by omega]; exact h5.symm)
        have := hmin r (by omega) (by omega)
        omega
    · show (min i (i + l) == i + S) = _
      rw [Nat.min_eq_left (by omega)]; rfl
    · show (max i (i + l) == i + S + 1) = _
      rw [Nat.max_eq_right (by omega)]
      rw [Bool.eq_iff_iff, beq_iff_eq, decide_eq_true_eq]; omega
  · -- to the left
    have hj : wrapU32 ((i : Int) + l * -1) = i - l := by
      rw [show (i : Int) + l * -1 = ((i - l : Nat) : Int) by omega]; exact wrapU32_nat (by omega)
    generalize hdn : karrasDelta n m i ((i - l : Nat) : Int) = dn
    have hdn0 : 0 ≤ dn := by rw [← hdn, delta_in _ _ (by omega)]; omega
    have hmin : ∀ k : Int, (i : Int) - l < k → k ≤ i → dn ≤ kB n m k := by
      have := (delta_left hs i (by omega) (dn - 1) (by omega) ((i - l : Nat) : Int) (by omega)).1 (by rw [hdn]; omega)
      intro k h1 h2
      have := this k (by omega) (by omega)
      omega
    have hnot : ¬ ∀ k : Int, (i : Int) - l < k → k ≤ i → dn < kB n m k := by
      intro hc
      have := (delta_left hs i (by omega) dn (by omega) ((i - l : Nat) : Int) (by omega)).2 (fun k a b => hc k (by omega) b)
      omega
    let P : Nat → Prop := fun x => ∀ k : Int, (i : Int) - x < k → k ≤ i → dn < kB n m k
    obtain ⟨S, hS1, hS2⟩ := exists_last P (fun x h k a b => h k (by omega) b) (fun k a b => by omega) l hnot
    have htest : ∀ x : Nat, 1 ≤ x → x ≤ 2 ^ 25 →
        (decide (karrasDelta n m i (wrapI32 ((i - l : Nat) : Int)) < karrasDelta n m i (wrapI32 ((i : Int) + x * -1))) = true ↔ x ≤ S) := by
      intro x h1 h2
      rw [decide_eq_true_eq, wrapI32_id (x := ((i - l : Nat) : Int)) (by omega) (by omega), hdn,
        wrapI32_id (by omega) (by omega), delta_left hs i (by omega) _ (by omega) _ (by omega), ← hS2 x]
      simp only [P]
      rw [show (i : Int) + x * -1 = i - x by omega]
    have hsp := splitSearch_spec _ l S (by omega) hS1 htest
    have hg : wrapU32 ((i : Int) + S * -1 + min (-1 : Int) 0) = i - S - 1 := by
      rw [show (i : Int) + S * -1 + min (-1 : Int) 0 = ((i - S - 1 : Nat) : Int) by omega]; exact wrapU32_nat (by omega)
    have hg1 : wrapU32 (((i - S - 1 : Nat) : Int) + 1) = i - S := by
      rw [show ((i - S - 1 : Nat) : Int) + 1 = ((i - S : Nat) : Int) by omega]; exact wrapU32_nat (by omega)
    have hnode := karrasSplit_eq (n := n) (m := m) i (-1) l S (i - l) (i - S - 1) hj hsp hg
    rw [hg1] at hnode
    have hb : karrasNode n m i = (karrasRange n m i).bind fun r => karrasSplit n m i r.1 r.2 := rfl
    rw [hr, Option.bind_some] at hb
    have hnode' := hb.trans hnode
    have hPS : P S := (hS2 S).2 (Nat.le_refl _)
    have hv : kB n m (i - S : Nat) = dn := by
      have h1 := hmin (i - S : Nat) (by omega) (by omega)
      by_contra hc
      have : P (S + 1) := by
        intro k h2 h3
        by_cases hk : k = (i - S : Nat)
        · rw [hk]; omega
        · exact hPS k (by omega) h3
      have := (hS2 (S + 1)).1 this
      omega
    refine ⟨i - l, i, i - S - 1, _, hnode', ⟨by omega, by omega, by omega, ?_, ?_⟩, rfl, ?_, ?_, ?_, Or.inr ⟨rfl, rfl, hend⟩⟩
    · intro k h1 h2
      have := hab k (by omega) h2
      exact ⟨by omega, this⟩
    · intro k h1 h2 h3
      rw [show i - S - 1 + 1 = i - S by omega] at h3 ⊢
      rw [hv]
      have h4 := hmin k (by omega) (by omega)
      by_contra hc
      have h5 : kB n m k = dn := by omega
      by_cases h6 : ((i - S : Nat) : Int) < k
      · have := hPS k (by omega) (by omega); omega
      · obtain ⟨r, h7, h8, h9⟩ := kB_unique hs k.toNat (i - S) (by omega) (by omega) (by omega)
          (by rw [hv, show ((k.toNat : Nat) : Int) = k by omega]; exact h5)
        have := hmin r (by omega) (by omega)
        rw [show ((k.toNat : Nat) : Int) = k by omega] at h9
        omega
    · show i - S = _; omega
    · show (min i (i - l) == i - S - 1) = _
      rw [Nat.min_eq_right (by omega)]; rfl
    · show (max i (i - l) == i - S) = _
      rw [Nat.max_eq_left (by omega)]
      rw [Bool.eq_iff_iff, beq_iff_eq, decide_eq_true_eq]; omega

end
end Shamrock
