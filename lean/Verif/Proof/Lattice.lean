import Verif.Model.Lattice
import Mathlib.Tactic.Linarith
import Mathlib.Tactic.Ring
import Mathlib.Tactic.FieldSimp
import Mathlib.Tactic.Positivity
/-! Geometry of the lattices. -/
namespace Shamrock.Setup

/-- Squared distance. -/
noncomputable def dist2 (p q : ℝ × ℝ × ℝ) : ℝ := (p.1 - q.1) ^ 2 + (p.2.1 - q.2.1) ^ 2 + (p.2.2 - q.2.2) ^ 2

theorem sq_ge (a : Int) (n : Int) (hn : 0 ≤ n) (h : n ≤ a ∨ a ≤ -n) : n ^ 2 ≤ a ^ 2 := by
  rcases h with h | h
  · exact pow_le_pow_left₀ hn h 2
  · have : n ^ 2 ≤ (-a) ^ 2 := pow_le_pow_left₀ hn (by omega) 2
    simpa using this

theorem hcp_int (a b c dj ds dq : Int) (di : Int) (ha : a = 2 * di + ds) (hb : b = 3 * dj + dq) (hs : (ds - (dj + c)) % 2 = 0) (hq : (dq - c) % 2 = 0)
    (hs1 : -1 ≤ ds ∧ ds ≤ 1) (hq1 : -1 ≤ dq ∧ dq ≤ 1) (hne : ¬ (di = 0 ∧ dj = 0 ∧ c = 0)) : 12 ≤ 3 * a ^ 2 + b ^ 2 + 8 * c ^ 2 := by
  have pa := sq_nonneg a
  have pb := sq_nonneg b
  have pc := sq_nonneg c
  by_cases h1 : 2 ≤ c ∨ c ≤ -2
  · have := sq_ge c 2 (by omega) (by omega); omega
  by_cases h2 : c = 0
  · subst h2
    by_cases h3 : 2 ≤ dj ∨ dj ≤ -2
    · have := sq_ge b 5 (by omega) (by omega); omega
    by_cases h4 : dj = 0
    · have := sq_ge a 2 (by omega) (by omega); omega
    · have := sq_ge a 1 (by omega) (by omega)
      have := sq_ge b 3 (by omega) (by omega); omega
  · have := sq_ge c 1 (by omega) (by omega)
    by_cases h3 : 2 ≤ b ∨ b ≤ -2
    · have := sq_ge b 2 (by omega) (by omega); omega
    · have := sq_ge b 1 (by omega) (by omega)
      have := sq_ge a 1 (by omega) (by omega); omega

theorem sqrt3 : (√3 : ℝ) ^ 2 = 3 := Real.sq_sqrt (by norm_num)
theorem sqrt6 : (√6 : ℝ) ^ 2 = 6 := Real.sq_sqrt (by norm_num)
theorem sqrt3_pos : (0 : ℝ) < √3 := Real.sqrt_pos.2 (by norm_num)
theorem sqrt6_pos : (0 : ℝ) < √6 := Real.sqrt_pos.2 (by norm_num)

theorem hcp_dist (dr : ℝ) (i j k i' j' k' : Int) : dist2 (hcp dr i j k) (hcp dr i' j' k') =
    dr ^ 2 / 3 * ((3 * (2 * (i - i') + (((j + k).natAbs % 2 : Nat) - ((j' + k').natAbs % 2 : Nat) : Int)) ^ 2 +
      (3 * (j - j') + ((k.natAbs % 2 : Nat) - (k'.natAbs % 2 : Nat) : Int)) ^ 2 + 8 * (k - k') ^ 2 : Int) : ℝ) := by
  unfold dist2 hcp
  generalize (j + k).natAbs % 2 = s
  generalize (j' + k').natAbs % 2 = s'
  generalize k.natAbs % 2 = q
  generalize k'.natAbs % 2 = q'
  push_cast
  have e1 : (dr * (√3 * (j + 1 / 3 * (q : ℝ))) - dr * (√3 * (j' + 1 / 3 * (q' : ℝ)))) ^ 2 = dr ^ 2 * 3 * ((j - j') + (q - q') / 3) ^ 2 := by
    rw [show dr * (√3 * (j + 1 / 3 * (q : ℝ))) - dr * (√3 * (j' + 1 / 3 * (q' : ℝ))) = dr * √3 * ((j - j') + (q - q') / 3) by ring, mul_pow, mul_pow, sqrt3]
  have e2 : (dr * (2 * √6 * (k : ℝ) / 3) - dr * (2 * √6 * (k' : ℝ) / 3)) ^ 2 = dr ^ 2 * 6 * (2 * (k - k') / 3) ^ 2 := by
    rw [show dr * (2 * √6 * (k : ℝ) / 3) - dr * (2 * √6 * (k' : ℝ) / 3) = dr * √6 * (2 * (k - k') / 3) by ring, mul_pow, mul_pow, sqrt6]
  rw [e1, e2]
  ring

theorem hcp_spacing (dr : ℝ) (i j k i' j' k' : Int) (h : ¬ (i = i' ∧ j = j' ∧ k = k')) : 4 * dr ^ 2 ≤ dist2 (hcp dr i j k) (hcp dr i' j' k') := by
  rw [hcp_dist]
  have := hcp_int _ _ (k - k') (j - j') (((j + k).natAbs % 2 : Nat) - ((j' + k').natAbs % 2 : Nat)) ((k.natAbs % 2 : Nat) - (k'.natAbs % 2 : Nat)) (i - i') rfl rfl
    (by omega) (by omega) (by omega) (by omega) (by omega)
  have h2 : ((12 : Int) : ℝ) ≤ ((3 * (2 * (i - i') + (((j + k).natAbs % 2 : Nat) - ((j' + k').natAbs % 2 : Nat) : Int)) ^ 2 +
      (3 * (j - j') + ((k.natAbs % 2 : Nat) - (k'.natAbs % 2 : Nat) : Int)) ^ 2 + 8 * (k - k') ^ 2 : Int) : ℝ) := Int.cast_le.2 this
  have h3 : (0 : ℝ) ≤ dr ^ 2 / 3 := by positivity
  have := mul_le_mul_of_nonneg_left h2 h3
  calc 4 * dr ^ 2 = dr ^ 2 / 3 * ((12 : Int) : ℝ) := by push_cast; ring
    _ ≤ _ := this

theorem hcp_inj (dr : ℝ) (hdr : dr ≠ 0) (i j k i' j' k' : Int) (h : hcp dr i j k = hcp dr i' j' k') : i = i' ∧ j = j' ∧ k = k' := by
  by_contra hne
  have := hcp_spacing dr i j k i' j' k' hne
  rw [h] at this
  have h2 : 0 < dr ^ 2 := by positivity
  simp only [dist2, sub_self] at this
  linarith

theorem cubic_dist (dr : ℝ) (i j k i' j' k' : Int) : dist2 (cubic dr i j k) (cubic dr i' j' k') = dr ^ 2 * (((i - i') ^ 2 + (j - j') ^ 2 + (k - k') ^ 2 : Int) : ℝ) := by
  unfold dist2 cubic; push_cast; ring

theorem cubic_spacing (dr : ℝ) (i j k i' j' k' : Int) (h : ¬ (i = i' ∧ j = j' ∧ k = k')) : dr ^ 2 ≤ dist2 (cubic dr i j k) (cubic dr i' j' k') := by
  rw [cubic_dist]
  have h1 : (1 : Int) ≤ (i - i') ^ 2 + (j - j') ^ 2 + (k - k') ^ 2 := by
    have a1 := sq_nonneg (i - i')
    have a2 := sq_nonneg (j - j')
    have a3 := sq_nonneg (k - k')
    by_cases e1 : i = i'
    · by_cases e2 : j = j'
      · have := sq_ge (k - k') 1 (by omega) (by omega); omega
      · have := sq_ge (j - j') 1 (by omega) (by omega); omega
    · have := sq_ge (i - i') 1 (by omega) (by omega); omega
  have h2 : ((1 : Int) : ℝ) ≤ (((i - i') ^ 2 + (j - j') ^ 2 + (k - k') ^ 2 : Int) : ℝ) := Int.cast_le.2 h1
  have h3 : (0 : ℝ) ≤ dr ^ 2 := sq_nonneg _
  have := mul_le_mul_of_nonneg_left h2 h3
  push_cast at this ⊢
  linarith

theorem natAbs_par (x y : Int) (h : (x - y) % 2 = 0) : x.natAbs % 2 = y.natAbs % 2 := by omega

/-- Translation by whole periodic boxes. -/
theorem hcp_shift (dr : ℝ) (i j k a b c : Int) (hb : b % 2 = 0) (hc : c % 2 = 0) :
    hcp dr (i + a) (j + b) (k + c) = ((hcp dr i j k).1 + 2 * a * dr, (hcp dr i j k).2.1 + √3 * b * dr, (hcp dr i j k).2.2 + 2 * √6 * c / 3 * dr) := by
  unfold hcp
  rw [natAbs_par (j + b + (k + c)) (j + k) (by omega), natAbs_par (k + c) k (by omega)]
  push_cast
  refine Prod.ext ?_ (Prod.ext ?_ ?_) <;> simp only <;> ring

theorem canMake_iff (cmin cmax : Int × Int × Int) : canMakePeriodic cmin cmax = true ↔
    2 ≤ cmax.1 - cmin.1 ∧ (cmax.2.1 - cmin.2.1) % 2 = 0 ∧ (cmax.2.2 - cmin.2.2) % 2 = 0 := by
  have ht : ∀ x : Int, x.tmod 2 = 0 ↔ x % 2 = 0 := fun x => by
    rw [← Int.dvd_iff_emod_eq_zero, ← Int.dvd_iff_tmod_eq_zero]
  unfold canMakePeriodic
  by_cases h1 : cmax.1 - cmin.1 < 2
  · rw [if_pos h1]; simp; omega
  rw [if_neg h1]
  by_cases h2 : (cmax.2.1 + cmin.2.1).tmod 2 = 0
  · rw [if_neg (by simpa using h2)]
    rw [ht] at h2
    by_cases h3 : (cmax.2.2 + cmin.2.2).tmod 2 = 0
    · rw [if_neg (by simpa using h3)]
      rw [ht] at h3
      simp only [true_iff]; omega
    · rw [if_pos h3]
      rw [ht] at h3
      simp only [Bool.false_eq_true, false_iff]; omega
  · rw [if_pos h2]
    rw [ht] at h2
    simp only [Bool.false_eq_true, false_iff]; omega

theorem nearest_ok (cmin cmax : Int × Int × Int) (h : 1 ≤ cmax.1 - cmin.1) : canMakePeriodic (nearestPeriodic cmin cmax).1 (nearestPeriodic cmin cmax).2 = true := by
  have ht : ∀ x : Int, x.tmod 2 = 0 ↔ x % 2 = 0 := fun x => by
    rw [← Int.dvd_iff_emod_eq_zero, ← Int.dvd_iff_tmod_eq_zero]
  rw [canMake_iff]
  simp only [nearestPeriodic, ne_eq, ht]
  refine ⟨?_, ?_, ?_⟩
  · split <;> omega
  · split <;> omega
  · split <;> omega

/-- `x0` real position of the lower bound, `i` a lattice index whose position is at least that. -/
theorem toI32_lo (x : ℝ) (t : Int) (h : toI32 x = some t) : ((t : ℝ) - 1 < x) ∧ ∀ (i : Int), x - 1 < i → t - 1 ≤ i := by
  unfold toI32 at h
  simp only [Option.ite_none_right_eq_some, Option.some.injEq] at h
  obtain ⟨_, rfl⟩ := h
  split
  · rename_i hx
    refine ⟨by have := Int.floor_le x; linarith, fun i hi => ?_⟩
    have h1 := Int.floor_le x
    have : ((⌊x⌋ : ℝ) - 2 : ℝ) < i := by linarith
    have : ((⌊x⌋ - 2 : Int) : ℝ) < i := by push_cast; linarith
    have := Int.cast_lt.1 this
    omega
  · rename_i hx
    refine ⟨by have := Int.ceil_lt_add_one x; linarith, fun i hi => ?_⟩
    have h1 := Int.ceil_lt_add_one x
    have : ((⌈x⌉ - 2 : Int) : ℝ) < i := by push_cast; linarith
    have := Int.cast_lt.1 this
    omega

theorem toI32_hi (x : ℝ) (t : Int) (h : toI32 x = some t) : (x < (t : ℝ) + 1) ∧ ∀ (i : Int), (i : ℝ) < x → i < t + 1 := by
  unfold toI32 at h
  simp only [Option.ite_none_right_eq_some, Option.some.injEq] at h
  obtain ⟨_, rfl⟩ := h
  have key : x < ((if 0 ≤ x then ⌊x⌋ else ⌈x⌉ : Int) : ℝ) + 1 := by
    split
    · exact Int.lt_floor_add_one x
    · have := Int.le_ceil x; linarith
  refine ⟨key, fun i hi => ?_⟩
  have : (i : ℝ) < (((if 0 ≤ x then ⌊x⌋ else ⌈x⌉ : Int) + 1 : Int) : ℝ) := by push_cast at key ⊢; linarith
  exact Int.cast_lt.1 this

end Shamrock.Setup
