import Verif.Model.Float
import Mathlib.Tactic.Linarith
import Mathlib.Tactic.Positivity
import Mathlib.Tactic.FieldSimp
import Mathlib.Tactic.Ring
import Mathlib.Tactic.NormNum
import Mathlib.Algebra.Order.Field.Power
/-! The default rounding mode satisfies `F64Rnd`. -/
namespace Shamrock

theorem rne_near (q : ℚ) : (rne q : ℚ) - q ≤ 1 / 2 ∧ q - rne q ≤ 1 / 2 := by
  have h1 := Int.floor_le q
  have h2 := Int.lt_floor_add_one q
  unfold rne
  split
  · constructor <;> linarith
  · split
    · push_cast; constructor <;> linarith
    · split
      · constructor <;> linarith
      · push_cast; constructor <;> linarith

theorem rne_mono {p q : ℚ} (h : p ≤ q) : rne p ≤ rne q := by
  have hp := Int.floor_le p
  have hq := Int.lt_floor_add_one q
  have hf : ⌊p⌋ ≤ ⌊q⌋ := Int.floor_mono h
  rcases hf.lt_or_eq with hlt | heq
  · have a : rne p ≤ ⌊p⌋ + 1 := by unfold rne; split <;> [omega; split <;> [omega; split <;> omega]]
    have b : ⌊q⌋ ≤ rne q := by unfold rne; split <;> [omega; split <;> [omega; split <;> omega]]
    omega
  · unfold rne
    rw [heq]
    by_cases h1 : q - ⌊q⌋ < 1 / 2
    · have : p - ⌊q⌋ < 1 / 2 := by linarith
      rw [if_pos h1, if_pos this]
    · rw [if_neg h1]
      by_cases h2 : 1 / 2 < q - ⌊q⌋
      · rw [if_pos h2]
        split <;> [omega; split <;> [omega; split <;> omega]]
      · rw [if_neg h2]
        have h3 : ¬ 1 / 2 < p - ⌊q⌋ := by intro h; apply h2; linarith
        rw [if_neg h3]
        split <;> split <;> omega

theorem rne_int (n : ℤ) : rne n = n := by
  unfold rne; simp

theorem rne53_binade {x : ℚ} (hx : 0 < x) : (2:ℚ) ^ (Int.log 2 x) ≤ rne53 x ∧ rne53 x ≤ 2 ^ (Int.log 2 x + 1) ∧
    |rne53 x - x| ≤ 1 / 2 * 2 ^ (Int.log 2 x - 52) := by
  have l1 : ((2:ℕ):ℚ) ^ (Int.log 2 x) ≤ x := Int.zpow_log_le_self one_lt_two hx
  have l2 : x < ((2:ℕ):ℚ) ^ (Int.log 2 x + 1) := Int.lt_zpow_succ_log_self one_lt_two x
  norm_num only [Nat.cast_ofNat] at l1 l2
  set e := Int.log 2 x
  have hs : (0:ℚ) < 2 ^ (e - 52) := by positivity
  have e1 : (2:ℚ) ^ e = ((2 ^ 52 : ℤ) : ℚ) * 2 ^ (e - 52) := by
    rw [show ((2 ^ 52 : ℤ) : ℚ) = (2:ℚ) ^ (52:ℤ) by norm_num, ← zpow_add₀ two_ne_zero]; congr 1; ring
  have e2 : (2:ℚ) ^ (e + 1) = ((2 ^ 53 : ℤ) : ℚ) * 2 ^ (e - 52) := by
    rw [show ((2 ^ 53 : ℤ) : ℚ) = (2:ℚ) ^ (53:ℤ) by norm_num, ← zpow_add₀ two_ne_zero]; congr 1; ring
  have q1 : ((2 ^ 52 : ℤ) : ℚ) ≤ x / 2 ^ (e - 52) := by rw [le_div_iff₀ hs, ← e1]; exact l1
  have q2 : x / 2 ^ (e - 52) ≤ ((2 ^ 53 : ℤ) : ℚ) := by rw [div_le_iff₀ hs, ← e2]; exact l2.le
  have r1 := rne_mono q1
  have r2 := rne_mono q2
  rw [rne_int] at r1 r2
  have hne : x ≠ 0 := ne_of_gt hx
  have hv : rne53 x = (rne (x / 2 ^ (e - 52)) : ℚ) * 2 ^ (e - 52) := by unfold rne53; rw [if_neg hne]
  refine ⟨?_, ?_, ?_⟩
  · rw [hv, e1]; exact mul_le_mul_of_nonneg_right (by exact_mod_cast r1) hs.le
  · rw [hv, e2]; exact mul_le_mul_of_nonneg_right (by exact_mod_cast r2) hs.le
  · obtain ⟨n1, n2⟩ := rne_near (x / 2 ^ (e - 52))
    have hx' : x = x / 2 ^ (e - 52) * 2 ^ (e - 52) := by field_simp
    rw [hv, abs_le]
    generalize hq : x / 2 ^ (e - 52) = q at *
    generalize hr : (rne q : ℚ) = r at *
    constructor <;> (rw [hx']; nlinarith)

theorem rne53_nonneg {x : ℚ} (hx : 0 ≤ x) : 0 ≤ rne53 x := by
  rcases hx.lt_or_eq with h | h
  · exact le_trans (by positivity) (rne53_binade h).1
  · rw [← h]; simp [rne53]

theorem rne53_mono {x y : ℚ} (hx : 0 ≤ x) (h : x ≤ y) : rne53 x ≤ rne53 y := by
  rcases hx.lt_or_eq with h0 | h0
  · have hy : 0 < y := lt_of_lt_of_le h0 h
    have hl : Int.log 2 x ≤ Int.log 2 y := Int.log_mono_right h0 h
    rcases hl.lt_or_eq with hlt | heq
    · calc rne53 x ≤ 2 ^ (Int.log 2 x + 1) := (rne53_binade h0).2.1
        _ ≤ 2 ^ (Int.log 2 y) := zpow_le_zpow_right₀ (by norm_num) (by omega)
        _ ≤ rne53 y := (rne53_binade hy).1
    · unfold rne53
      rw [if_neg (ne_of_gt h0), if_neg (ne_of_gt hy), heq]
      have hs : (0:ℚ) < 2 ^ (Int.log 2 y - 52) := by positivity
      refine mul_le_mul_of_nonneg_right ?_ hs.le
      exact_mod_cast rne_mono (div_le_div_of_nonneg_right h hs.le)
  · rw [← h0]
    have : rne53 0 = 0 := by simp [rne53]
    rw [this]
    exact rne53_nonneg (by linarith)

theorem rne53_err {x : ℚ} (hx : 0 ≤ x) : |rne53 x - x| ≤ x * (1 / 2 ^ 53) := by
  rcases hx.lt_or_eq with h0 | h0
  · refine (rne53_binade h0).2.2.trans ?_
    have l1 : ((2:ℕ):ℚ) ^ (Int.log 2 x) ≤ x := Int.zpow_log_le_self one_lt_two h0
    norm_num only [Nat.cast_ofNat] at l1
    have : (2:ℚ) ^ (Int.log 2 x - 52) = 2 ^ (Int.log 2 x) * (1 / 2 ^ 52) := by
      rw [zpow_sub₀ two_ne_zero]; norm_num [div_eq_mul_inv]
    rw [this]
    linarith
  · rw [← h0]; simp [rne53]

/-- Round to nearest even meets the specification of a rounding (so theorems over every `F64Rnd` are not vacuous). -/
def f64RNE : F64Rnd where
  fl := rne53
  mono := fun _ _ h => rne53_mono h
  lo := fun x h => by have := (abs_le.1 (rne53_err h)).1; linarith
  hi := fun x h => by have := (abs_le.1 (rne53_err h)).2; linarith

end Shamrock
