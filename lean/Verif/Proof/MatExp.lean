import Verif.Model.MatExp
import Mathlib.Tactic.FieldSimp
import Mathlib.Tactic.Ring
import Mathlib.Tactic.Linarith
import Mathlib.Tactic.NormNum
import Mathlib.Algebra.BigOperators.Intervals
import Mathlib.LinearAlgebra.Matrix.Notation
import Mathlib.Data.Real.StarOrdered
/-!
Lemmas for C73: the loops of the matrix exponential.
-/
namespace Shamrock.Dust

noncomputable section

variable {n : Nat}

theorem setIdentity_eq : (setIdentity : Mat n) = 1 := by
  funext i j
  rw [Matrix.one_apply]
  rfl

theorem setNul_eq : (setNul : Mat n) = 0 := rfl

theorem mulScalar_eq (x : ℝ) (A : Mat n) : mulScalar x A = x • A := by
  funext i j
  exact mul_comm _ _

theorem axpyBeta_eq (a : ℝ) (X : Mat n) (b : ℝ) (Y : Mat n) : axpyBeta a X b Y = a • X + b • Y := rfl

theorem gemm_eq (A B C : Mat n) : gemm 1 A B 0 C = A * B := by
  funext i j
  rw [Matrix.mul_apply]
  show 1 * _ + 0 * _ = _
  rw [one_mul, zero_mul, add_zero]

theorem plusScalarId_eq (A : Mat n) (b : ℝ) : plusScalarId A b = A + b • (1 : Mat n) := by
  funext i j
  show _ = A i j + b * (1 : Mat n) i j
  rw [Matrix.one_apply]
  unfold plusScalarId
  split_ifs with h
  · rw [h, mul_one]
  · rw [mul_zero, add_zero]

/-- The coefficient `i`, 0 beyond the end. -/
def coef (i : Nat) : ℝ := bexpCoef.getD i 0

theorem coef_get {i : Nat} (h : i < 30) : bexpCoef[i]? = some (coef i) := by
  have hl : i < bexpCoef.length := h
  unfold coef
  rw [List.getD_eq_getElem?_getD, List.getElem?_eq_getElem hl]
  rfl

theorem inner_fold (A : Mat n) (q k : Nat) (h : q * k + q < 30) : ∀ m, m ≤ q →
    ((List.range m).map fun j => q * k + (j + 1)).foldlM (tayInner A) (setIdentity, setNul) =
      some (A ^ m, ∑ j ∈ Finset.range m, coef (q * k + (j + 1)) • A ^ (j + 1)) := by
  intro m
  induction m with
  | zero =>
    intro _
    simp [setIdentity_eq, setNul_eq]
  | succ m ih =>
    intro hm
    rw [List.range_succ, List.map_append, List.foldlM_append, ih (by omega)]
    simp only [Option.bind_eq_bind, Option.bind_some, List.map_cons, List.map_nil, List.foldlM_cons, List.foldlM_nil]
    unfold tayInner
    rw [coef_get (by omega)]
    simp only [Option.map_some, Option.bind_some, gemm_eq, axpyBeta_eq, Option.pure_def]
    rw [Finset.sum_range_succ, ← pow_succ', one_smul]
    exact congrArg some (Prod.ext rfl (add_comm _ _))

theorem outer_step (A F : Mat n) (q k : Nat) (h : q * k + q < 30) : tayOuter A q F k =
    some ((F + ∑ j ∈ Finset.range q, coef (q * k + (j + 1)) • A ^ (j + 1)) * (if 1 ≤ k then A ^ q else 1)) := by
  unfold tayOuter
  rw [inner_fold A q k h q le_rfl]
  simp only [Option.map_some, gemm_eq, axpyBeta_eq, one_smul, setIdentity_eq]
  congr 2
  · rw [add_comm]
  · split_ifs <;> simp

theorem outer_fold (A : Mat n) (q : Nat) : ∀ (r : Nat) (F : Mat n), q * r < 30 →
    (List.range r).reverse.foldlM (tayOuter A q) F =
      some (F * A ^ (q * (r - 1)) + ∑ i ∈ Finset.range (q * r), coef (i + 1) • A ^ (i + 1)) := by
  intro r
  induction r with
  | zero => intro F _; simp
  | succ r ih =>
    intro F h
    have h' : q * r + q < 30 := by rw [Nat.mul_succ] at h; exact h
    rw [List.range_succ, List.reverse_append, List.reverse_singleton, List.singleton_append, List.foldlM_cons, outer_step A F q r h']
    simp only [Option.bind_eq_bind, Option.bind_some]
    rw [ih _ (by omega)]
    congr 1
    rw [Nat.mul_succ, Finset.sum_range_add, ← add_assoc, Nat.add_sub_cancel]
    have hs : (∑ j ∈ Finset.range q, coef (q * r + (j + 1)) • A ^ (j + 1)) * A ^ (q * r) =
        ∑ j ∈ Finset.range q, coef (q * r + j + 1) • A ^ (q * r + j + 1) := by
      rw [Finset.sum_mul]
      apply Finset.sum_congr rfl
      intro j _
      rw [smul_mul_assoc, ← pow_add, show j + 1 + q * r = q * r + j + 1 by omega, show q * r + (j + 1) = q * r + j + 1 by omega]
    rw [← hs]
    by_cases hr : 1 ≤ r
    · rw [if_pos hr, mul_assoc, ← pow_add, show q + q * (r - 1) = q * r by
        obtain ⟨t, rfl⟩ := Nat.exists_eq_add_of_le' hr
        rw [Nat.add_sub_cancel, Nat.mul_succ, Nat.add_comm], add_mul, add_right_comm, add_assoc]
    · have : r = 0 := by omega
      subst this
      simp [add_mul]

/-- The Taylor polynomial of degree `m` with the coefficients of the code. -/
def taylorPoly (m : Nat) (X : Mat n) : Mat n := ∑ i ∈ Finset.range (m + 1), coef i • X ^ i

theorem coef_zero : coef 0 = 1 := by
  show (1.0 : ℝ) = 1
  norm_num

theorem taylorEval_eq (r q : Nat) (A : Mat n) (h : q * r < 30) : taylorEval r q A = some (taylorPoly (q * r) A) := by
  unfold taylorEval taylorPoly
  rw [outer_fold A q r _ h, Finset.sum_range_succ', setNul_eq, coef_zero]
  simp [plusScalarId_eq]

/-- The order 30 reads past the end of the coefficients. -/
theorem taylorEval_oob (A : Mat n) : taylorEval 6 5 A = none := by
  unfold taylorEval
  have hr : (List.range 6).reverse = [5, 4, 3, 2, 1, 0] := rfl
  have h5 : ∀ F : Mat n, tayOuter A 5 F 5 = none := by
    intro F
    unfold tayOuter
    have : ((List.range 5).map fun j => 5 * 5 + (j + 1)) = [26, 27, 28, 29] ++ [30] := rfl
    rw [this, List.foldlM_append]
    have hn : ∀ st, [30].foldlM (tayInner A) st = none := fun st => rfl
    have hb : ∀ o : Option (Mat n × Mat n), (o >>= fun st => [30].foldlM (tayInner A) st) = none := by
      intro o
      cases o with
      | none => rfl
      | some st => exact hn st
    rw [hb]
    rfl
  rw [hr, List.foldlM_cons, h5]
  rfl

theorem square_loop (F : Mat n) : ∀ m, (List.range m).foldl (fun I _ => gemm 1 F I 0 I) setIdentity = F ^ m := by
  intro m
  induction m with
  | zero => rw [pow_zero, List.range_zero, List.foldl_nil, setIdentity_eq]
  | succ m ih => rw [List.range_succ, List.foldl_append, ih, List.foldl_cons, List.foldl_nil, gemm_eq, ← pow_succ']

theorem foldl_max_ge {α : Type} (f : α → ℝ) : ∀ (l : List α) (a : ℝ), a ≤ l.foldl (fun r i => max r (f i)) a ∧
    ∀ x ∈ l, f x ≤ l.foldl (fun r i => max r (f i)) a := by
  intro l
  induction l with
  | nil => intro a; exact ⟨le_rfl, fun x hx => absurd hx List.not_mem_nil⟩
  | cons y l ih =>
    intro a
    rw [List.foldl_cons]
    refine ⟨(le_max_left _ _).trans (ih _).1, fun x hx => ?_⟩
    rcases List.mem_cons.1 hx with rfl | hx
    · exact (le_max_right _ _).trans (ih _).1
    · exact (ih _).2 x hx

theorem l1Norm_nonneg (A : Mat n) : 0 ≤ l1Norm A := (foldl_max_ge (fun i => ∑ j, |A i j|) (List.finRange n) 0).1

theorem row_le (A : Mat n) (i : Fin n) : ∑ j, |A i j| ≤ l1Norm A :=
  (foldl_max_ge (fun i => ∑ j, |A i j|) (List.finRange n) 0).2 i (List.mem_finRange i)

theorem sTilde_le {x : ℝ} (hx : 0 ≤ x) : x / 2 ^ sTilde 9 x ≤ 3.5397 := by
  have ht : theta 9 = 3.5397 := rfl
  have h2 : (0 : ℝ) < 2 ^ sTilde 9 x := by positivity
  rw [div_le_iff₀ h2]
  rcases hx.eq_or_lt with rfl | hx
  · positivity
  have h1 : Real.logb 2 (x / theta 9) ≤ (sTilde 9 x : ℝ) := (le_max_right _ _).trans (Nat.le_ceil _)
  rw [ht] at h1
  rw [Real.logb_le_iff_le_rpow (by norm_num) (by positivity), Real.rpow_natCast] at h1
  rw [div_le_iff₀ (by norm_num)] at h1
  linarith

end

end Shamrock.Dust
