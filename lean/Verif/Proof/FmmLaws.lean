import Verif.Model.SelfGrav
import Verif.Props.Fmm
/-! The laws of the multipole operators that the tree passes need, for the five orders. -/
namespace Shamrock.SelfGrav

open Shamrock (V3)
open Shamrock.Fmm

noncomputable section

/-- What the passes need of the operators of an order; `p` terms in the Taylor polynomials. -/
structure FmmLaws (O : FmmOps) (p : Nat) where
  isM : O.Mass → Sources → V3 ℝ → Prop
  leaf : ∀ xs s m, isM (O.leafM xs s m) (xs.map fun x => (m, x)) s
  zero : ∀ s, isM O.zeroM [] s
  add : ∀ {A B a b s}, isM A a s → isM B b s → isM (O.addM A B) (a ++ b) s
  shift : ∀ {Q src s t}, isM Q src s → isM (O.offsetM Q s t) src t
  ev_zero : ∀ h i, ix (O.contract (O.fromVec h) O.zeroG) i = 0
  ev_add : ∀ D E h i, ix (O.contract (O.fromVec h) (O.addG D E)) i = ix (O.contract (O.fromVec h) D) i + ix (O.contract (O.fromVec h) E) i
  ev_shift : ∀ D s t x i, ix (O.contract (O.fromVec (x - t)) (O.offsetG D s t)) i = ix (O.contract (O.fromVec (x - s)) D) i
  ev_force : ∀ {Q src sB}, isM Q src sB → ∀ sA x, sB - sA ≠ ⟨0, 0, 0⟩ → ∀ i,
    ix (O.contract (O.fromVec (x - sA)) (O.getG (O.green (sB - sA)) Q)) i =
      (src.map fun q => q.1 * taylorSum (fun t => gravField (along (sB - sA) ((q.2 - sB) - (x - sA)) t) i) p).sum

theorem slice_plus2 (a b : SymT2) (i : Fin 3) : (a.addAssign b).slice i = (a.slice i).addAssign (b.slice i) := by
  fin_cases i <;> rfl

theorem slice_plus3 (a b : SymT3) (i : Fin 3) : (a.addAssign b).slice i = (a.slice i).addAssign (b.slice i) := by
  fin_cases i <;> rfl

theorem slice_plus4 (a b : SymT4) (i : Fin 3) : (a.addAssign b).slice i = (a.slice i).addAssign (b.slice i) := by
  fin_cases i <;> rfl

theorem slice_plus5 (a b : SymT5) (i : Fin 3) : (a.addAssign b).slice i = (a.slice i).addAssign (b.slice i) := by
  fin_cases i <;> rfl

theorem at_plus1 (a b : SymT1) (i : Fin 3) : (a.addAssign b).at i = a.at i + b.at i := by
  fin_cases i <;> rfl

theorem at_plus2 (a b : SymT2) (i j : Fin 3) : (a.addAssign b).at i j = a.at i j + b.at i j := by
  show ((a.addAssign b).slice i).at j = _
  rw [slice_plus2, at_plus1]
  rfl

theorem at_plus3 (a b : SymT3) (i j k : Fin 3) : (a.addAssign b).at i j k = a.at i j k + b.at i j k := by
  show ((a.addAssign b).slice i).at j k = _
  rw [slice_plus3, at_plus2]
  rfl

theorem at_plus4 (a b : SymT4) (i j k l : Fin 3) : (a.addAssign b).at i j k l = a.at i j k l + b.at i j k l := by
  show ((a.addAssign b).slice i).at j k l = _
  rw [slice_plus4, at_plus3]
  rfl

theorem at_plus5 (a b : SymT5) (i j k l m : Fin 3) : (a.addAssign b).at i j k l m = a.at i j k l m + b.at i j k l m := by
  show ((a.addAssign b).slice i).at j k l m = _
  rw [slice_plus5, at_plus4]
  rfl

theorem at_zero1 (i : Fin 3) : (⟨0, 0, 0⟩ : SymT1).at i = 0 := by
  fin_cases i <;> rfl

theorem at_zero2 (i j : Fin 3) : (⟨0, 0, 0, 0, 0, 0⟩ : SymT2).at i j = 0 := by
  fin_cases i <;> exact at_zero1 j

theorem at_zero3 (i j k : Fin 3) : (⟨0, 0, 0, 0, 0, 0, 0, 0, 0, 0⟩ : SymT3).at i j k = 0 := by
  fin_cases i <;> exact at_zero2 j k

theorem at_zero4 (i j k l : Fin 3) : (⟨0, 0, 0, 0, 0, 0, 0, 0, 0, 0, 0, 0, 0, 0, 0⟩ : SymT4).at i j k l = 0 := by
  fin_cases i <;> exact at_zero3 j k l

theorem at_zero5 (i j k l m : Fin 3) : (⟨0, 0, 0, 0, 0, 0, 0, 0, 0, 0, 0, 0, 0, 0, 0, 0, 0, 0, 0, 0, 0⟩ : SymT5).at i j k l m = 0 := by
  fin_cases i <;> exact at_zero4 j k l m

theorem taylor_add1 (D E : Coll11) (h : V3 ℝ) (i : Fin 3) :
    taylorField1 (D.addAssign E) h i = taylorField1 D h i + taylorField1 E h i := by
  simp only [taylorField1, Coll11.addAssign, at_plus1]

theorem taylor_zero1 (h : V3 ℝ) (i : Fin 3) : taylorField1 Coll11.zeros h i = 0 := by
  simp [taylorField1, Coll11.zeros, at_zero1]

theorem taylor_add2 (D E : Coll12) (h : V3 ℝ) (i : Fin 3) :
    taylorField2 (D.addAssign E) h i = taylorField2 D h i + taylorField2 E h i := by
  simp only [taylorField2, Coll12.addAssign, at_plus1, at_plus2, add_mul, Finset.sum_add_distrib]
  ring
theorem taylor_zero2 (h : V3 ℝ) (i : Fin 3) : taylorField2 Coll12.zeros h i = 0 := by
  simp [taylorField2, Coll12.zeros, at_zero1, at_zero2]

theorem taylor_add3 (D E : Coll13) (h : V3 ℝ) (i : Fin 3) :
    taylorField3 (D.addAssign E) h i = taylorField3 D h i + taylorField3 E h i := by
  simp only [taylorField3, Coll13.addAssign, at_plus1, at_plus2, at_plus3, add_mul, Finset.sum_add_distrib]
  ring
theorem taylor_zero3 (h : V3 ℝ) (i : Fin 3) : taylorField3 Coll13.zeros h i = 0 := by
  simp [taylorField3, Coll13.zeros, at_zero1, at_zero2, at_zero3]

theorem taylor_add4 (D E : Coll14) (h : V3 ℝ) (i : Fin 3) :
    taylorField4 (D.addAssign E) h i = taylorField4 D h i + taylorField4 E h i := by
  simp only [taylorField4, Coll14.addAssign, at_plus1, at_plus2, at_plus3, at_plus4, add_mul, Finset.sum_add_distrib]
  ring
theorem taylor_zero4 (h : V3 ℝ) (i : Fin 3) : taylorField4 Coll14.zeros h i = 0 := by
  simp [taylorField4, Coll14.zeros, at_zero1, at_zero2, at_zero3, at_zero4]

theorem taylor_add5 (D E : Coll15) (h : V3 ℝ) (i : Fin 3) :
    taylorField5 (D.addAssign E) h i = taylorField5 D h i + taylorField5 E h i := by
  simp only [taylorField5, Coll15.addAssign, at_plus1, at_plus2, at_plus3, at_plus4, at_plus5, add_mul, Finset.sum_add_distrib]
  ring
theorem taylor_zero5 (h : V3 ℝ) (i : Fin 3) : taylorField5 Coll15.zeros h i = 0 := by
  simp [taylorField5, Coll15.zeros, at_zero1, at_zero2, at_zero3, at_zero4, at_zero5]

/-- Order 1. -/
def laws1 : FmmLaws (fmmOps 0) 1 where
  isM := IsMoments0
  leaf := C68_leaf_moments_0
  zero := moments0_zeros
  add := moments0_add
  shift := C68_multipole_shift_0
  ev_zero h i := (C68_evaluate_1 _ h i).trans (taylor_zero1 h i)
  ev_add D E h i := (C68_evaluate_1 _ h i).trans ((taylor_add1 D E h i).trans (congrArg₂ (· + ·) (C68_evaluate_1 D h i).symm (C68_evaluate_1 E h i).symm))
  ev_shift D s t x i := (C68_evaluate_1 _ (x - t) i).trans ((C68_local_shift_1 D s t x i).trans (C68_evaluate_1 _ _ i).symm)
  ev_force hQ sA x hr i := C68_cell_force_1 hQ sA x hr i

/-- Order 2. -/
def laws2 : FmmLaws (fmmOps 1) 2 where
  isM := IsMoments1
  leaf := C68_leaf_moments_1
  zero := moments1_zeros
  add := moments1_add
  shift := C68_multipole_shift_1
  ev_zero h i := (C68_evaluate_2 _ h i).trans (taylor_zero2 h i)
  ev_add D E h i := (C68_evaluate_2 _ h i).trans ((taylor_add2 D E h i).trans (congrArg₂ (· + ·) (C68_evaluate_2 D h i).symm (C68_evaluate_2 E h i).symm))
  ev_shift D s t x i := (C68_evaluate_2 _ (x - t) i).trans ((C68_local_shift_2 D s t x i).trans (C68_evaluate_2 _ _ i).symm)
  ev_force hQ sA x hr i := C68_cell_force_2 hQ sA x hr i

/-- Order 3. -/
def laws3 : FmmLaws (fmmOps 2) 3 where
  isM := IsMoments2
  leaf := C68_leaf_moments_2
  zero := moments2_zeros
  add := moments2_add
  shift := C68_multipole_shift_2
  ev_zero h i := (C68_evaluate_3 _ h i).trans (taylor_zero3 h i)
  ev_add D E h i := (C68_evaluate_3 _ h i).trans ((taylor_add3 D E h i).trans (congrArg₂ (· + ·) (C68_evaluate_3 D h i).symm (C68_evaluate_3 E h i).symm))
  ev_shift D s t x i := (C68_evaluate_3 _ (x - t) i).trans ((C68_local_shift_3 D s t x i).trans (C68_evaluate_3 _ _ i).symm)
  ev_force hQ sA x hr i := C68_cell_force_3 hQ sA x hr i

/-- Order 4. -/
def laws4 : FmmLaws (fmmOps 3) 4 where
  isM := IsMoments3
  leaf := C68_leaf_moments_3
  zero := moments3_zeros
  add := moments3_add
  shift := C68_multipole_shift_3
  ev_zero h i := (C68_evaluate_4 _ h i).trans (taylor_zero4 h i)
  ev_add D E h i := (C68_evaluate_4 _ h i).trans ((taylor_add4 D E h i).trans (congrArg₂ (· + ·) (C68_evaluate_4 D h i).symm (C68_evaluate_4 E h i).symm))
  ev_shift D s t x i := (C68_evaluate_4 _ (x - t) i).trans ((C68_local_shift_4 D s t x i).trans (C68_evaluate_4 _ _ i).symm)
  ev_force hQ sA x hr i := C68_cell_force_4 hQ sA x hr i

/-- Order 5. -/
def laws5 : FmmLaws (fmmOps 4) 5 where
  isM := IsMoments4
  leaf := C68_leaf_moments_4
  zero := moments4_zeros
  add := moments4_add
  shift := C68_multipole_shift_4
  ev_zero h i := (C68_evaluate_5 _ h i).trans (taylor_zero5 h i)
  ev_add D E h i := (C68_evaluate_5 _ h i).trans ((taylor_add5 D E h i).trans (congrArg₂ (· + ·) (C68_evaluate_5 D h i).symm (C68_evaluate_5 E h i).symm))
  ev_shift D s t x i := (C68_evaluate_5 _ (x - t) i).trans ((C68_local_shift_5 D s t x i).trans (C68_evaluate_5 _ _ i).symm)
  ev_force hQ sA x hr i := C68_cell_force_5 hQ sA x hr i

/-- Order `k + 1`. -/
def fmmLaws : (k : Fin 5) → FmmLaws (fmmOps k) (k.val + 1)
  | 0 => laws1
  | 1 => laws2
  | 2 => laws3
  | 3 => laws4
  | 4 => laws5

end

end Shamrock.SelfGrav
