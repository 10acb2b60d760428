import Verif.Model.Integer
import Mathlib.Data.Nat.Bitwise
import Mathlib.Data.Nat.Log
import Mathlib.Data.Nat.Size
import Mathlib.Tactic.Ring
import Mathlib.Tactic.Linarith
namespace Shamrock

theorem xorSwap_eq {w : Nat} (a b : BitVec w) : xorSwap a b = (b, a) := by
  unfold xorSwap
  refine Prod.ext ?_ ?_
  · apply BitVec.eq_of_getLsbD_eq; intro i hi
    simp only [BitVec.getLsbD_xor]
    cases a.getLsbD i <;> cases b.getLsbD i <;> rfl
  · apply BitVec.eq_of_getLsbD_eq; intro i hi
    simp only [BitVec.getLsbD_xor]
    cases a.getLsbD i <;> cases b.getLsbD i <;> rfl

/-- `x` has, at each position `i`, the "or" of bits `i .. i+k-1` of `n`. -/
def SmearBy (n k x : Nat) : Prop := ∀ i, x.testBit i = true ↔ ∃ j < k, n.testBit (i + j) = true

theorem smearBy_one (n : Nat) : SmearBy n 1 n := by
  intro i; constructor
  · intro h; exact ⟨0, by omega, by simpa using h⟩
  · rintro ⟨j, hj, h⟩; have : j = 0 := by omega
    subst this; simpa using h

theorem smearBy_step {n k x : Nat} (h : SmearBy n k x) : SmearBy n (k + k) (x ||| (x >>> k)) := by
  intro i
  rw [Nat.testBit_or, Nat.testBit_shiftRight, Bool.or_eq_true, h i, h (k + i)]
  constructor
  · rintro (⟨j, hj, hb⟩ | ⟨j, hj, hb⟩)
    · exact ⟨j, by omega, hb⟩
    · exact ⟨k + j, by omega, by rw [← hb]; congr 1; omega⟩
  · rintro ⟨j, hj, hb⟩
    by_cases hjk : j < k
    · exact Or.inl ⟨j, hjk, hb⟩
    · exact Or.inr ⟨j - k, by omega, by rw [← hb]; congr 1; omega⟩

theorem smear_total {n k x : Nat} (h : SmearBy n k x) (hn : n < 2 ^ k) :
    x + 1 = 2 ^ n.size := by
  have hx : x = 2 ^ n.size - 1 := by
    apply Nat.eq_of_testBit_eq
    intro i
    rw [Nat.testBit_two_pow_sub_one]
    have h1 := h i
    by_cases hi : i < n.size
    · have hnz : n ≠ 0 := by rintro rfl; simp at hi
      have htop : n.testBit (n.size - 1) = true := by
        have hpos : 0 < n.size := by omega
        have hlb : 2 ^ (n.size - 1) ≤ n := by
          by_contra hlt
          have := Nat.size_le.2 (Nat.lt_of_not_le hlt)
          omega
        have hub : n < 2 ^ n.size := Nat.lt_size_self n
        have hs : n.size = (n.size - 1) + 1 := by omega
        rw [Nat.testBit_eq_decide_div_mod_eq]
        have : n / 2 ^ (n.size - 1) = 1 := by
          apply Nat.div_eq_of_lt_le
          · simpa using hlb
          · rw [hs, Nat.pow_succ] at hub; omega
        simp [this]
      have hsz : n.size ≤ k := Nat.size_le.2 hn
      have : x.testBit i = true := h1.2 ⟨n.size - 1 - i, by omega, by
        rw [← htop]; congr 1; omega⟩
      simp [this, hi]
    · have : ¬ (x.testBit i = true) := by
        rw [h1]; rintro ⟨j, hj, hb⟩
        have hub : n < 2 ^ (i + j) := lt_of_lt_of_le (Nat.lt_size_self n)
          (Nat.pow_le_pow_right (by omega) (by omega))
        rw [Nat.testBit_lt_two_pow hub] at hb; exact absurd hb (by simp)
      simp [hi, this]
  have : 0 < 2 ^ n.size := Nat.two_pow_pos _
  omega

theorem smear32 (v : BitVec 32) :
    (roundupPow2U32 v).toNat = 2 ^ ((v - 1).toNat.size) % 2 ^ 32 := by
  unfold roundupPow2U32
  simp only []
  have hlt := (v - 1).isLt
  generalize hw : (v - 1) = w at *
  set n := w.toNat with hn
  rw [BitVec.toNat_add]
  simp only [BitVec.toNat_or, BitVec.toNat_ushiftRight]
  have h1 := smearBy_one n
  have h2 := smearBy_step h1
  have h4 := smearBy_step h2
  have h8 := smearBy_step h4
  have h16 := smearBy_step h8
  have h32 := smearBy_step h16
  have := smear_total h32 hlt
  simp only [Nat.reduceAdd] at this
  rw [← this]
  rfl

theorem smear64 (v : BitVec 64) :
    (roundupPow2U64 v).toNat = 2 ^ ((v - 1).toNat.size) % 2 ^ 64 := by
  unfold roundupPow2U64
  simp only []
  have hlt := (v - 1).isLt
  generalize hw : (v - 1) = w at *
  set n := w.toNat with hn
  rw [BitVec.toNat_add]
  simp only [BitVec.toNat_or, BitVec.toNat_ushiftRight]
  have h1 := smearBy_one n
  have h2 := smearBy_step h1
  have h4 := smearBy_step h2
  have h8 := smearBy_step h4
  have h16 := smearBy_step h8
  have h32 := smearBy_step h16
  have h64 := smearBy_step h32
  have := smear_total h64 hlt
  simp only [Nat.reduceAdd] at this
  rw [← this]
  rfl

/-- Least power of two at least `v`, characterised without reference to the code. -/
def IsRoundupPow2 (v r : Nat) : Prop :=
  (∃ k, r = 2 ^ k) ∧ v ≤ r ∧ ∀ k, v ≤ 2 ^ k → r ≤ 2 ^ k

theorem isRoundup_size {v : Nat} (hv : 1 ≤ v) : IsRoundupPow2 v (2 ^ (v - 1).size) := by
  refine ⟨⟨_, rfl⟩, ?_, ?_⟩
  · have := Nat.lt_size_self (v - 1); omega
  · intro k hk
    apply Nat.pow_le_pow_right (by omega)
    apply Nat.size_le.2; omega

theorem isPowOfTwo_iff {w : Nat} (v : BitVec w) :
    isPowOfTwo v = true ↔ ∃ k, v.toNat = 2 ^ k := by
  unfold isPowOfTwo
  by_cases hv : v = 0
  · subst hv
    simp
    intro k hk
    have := Nat.two_pow_pos k
    omega
  · have hpos : 0 < v.toNat := by
      rcases Nat.eq_zero_or_pos v.toNat with h | h
      · exact absurd (BitVec.eq_of_toNat_eq (by simpa using h)) hv
      · exact h
    have hw : 0 < w := by
      rcases Nat.eq_zero_or_pos w with h | h
      · subst h; have := v.isLt; simp at this; omega
      · exact h
    have hsub : (v - 1).toNat = v.toNat - 1 := by
      rw [BitVec.toNat_sub_of_le]
      · simp [BitVec.toNat_one hw]
      · rw [BitVec.le_def]; simp [BitVec.toNat_one hw]; omega
    have heq : ((v &&& (v - 1)) == 0) = true ↔ v.toNat &&& (v.toNat - 1) = 0 := by
      rw [beq_iff_eq, ← BitVec.toNat_inj, BitVec.toNat_and, hsub]
      simp
    simp only [bne_iff_ne, ne_eq, hv, not_false_eq_true, Bool.and_eq_true, true_and, heq]
    exact Nat.and_sub_one_eq_zero_iff_isPowerOfTwo (by omega) |>.trans Iff.rfl

end Shamrock
