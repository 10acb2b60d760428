import Mathlib.Tactic.Ring
import Mathlib.Tactic.FinCases
import Verif.Proof.FmmContract
import Verif.Proof.FmmShift

/-!
Building moments; evaluating and translating local expansions.
-/

namespace Shamrock.Fmm

open Shamrock (V3)

noncomputable section

theorem lmul12I (a : SymT1) (b : SymT2) : (a * b : SymT1) = b.inner1 a := rfl
theorem lmul13I (a : SymT1) (b : SymT3) : (a * b : SymT2) = b.inner1 a := rfl
theorem lmul23I (a : SymT2) (b : SymT3) : (a * b : SymT1) = b.inner2 a := rfl
theorem lmul14I (a : SymT1) (b : SymT4) : (a * b : SymT3) = b.inner1 a := rfl
theorem lmul24I (a : SymT2) (b : SymT4) : (a * b : SymT2) = b.inner2 a := rfl
theorem lmul34I (a : SymT3) (b : SymT4) : (a * b : SymT1) = b.inner3 a := rfl
theorem lmul15I (a : SymT1) (b : SymT5) : (a * b : SymT4) = b.inner1 a := rfl
theorem lmul25I (a : SymT2) (b : SymT5) : (a * b : SymT3) = b.inner2 a := rfl
theorem lmul35I (a : SymT3) (b : SymT5) : (a * b : SymT2) = b.inner3 a := rfl
theorem lmul45I (a : SymT4) (b : SymT5) : (a * b : SymT1) = b.inner4 a := rfl

theorem mom_append (a b : Sources) (s : V3 ℝ) (l : List (Fin 3)) : mom (a ++ b) s l = mom a s l + mom b s l := by
  simp [mom]

theorem mom_single (m : ℝ) (x s : V3 ℝ) (l : List (Fin 3)) :
    mom [(m, x)] s l = m * (l.map fun i => ix x i - ix s i).prod := by
  simp [mom]

theorem mom_scale (c : ℝ) (a : Sources) (s : V3 ℝ) (l : List (Fin 3)) :
    mom (a.map fun p => (p.1 * c, p.2)) s l = mom a s l * c := by
  induction a with
  | nil => simp [mom]
  | cons p a ih =>
    simp only [mom, List.map_cons, List.sum_cons] at ih ⊢
    rw [ih]
    ring

theorem momT1_append (a b : Sources) (s : V3 ℝ) : (momT1 a s).addAssign (momT1 b s) = momT1 (a ++ b) s := by
  simp only [momT1, SymT1.addAssign, mom_append]

theorem momT1_scale (a : Sources) (s : V3 ℝ) (c : ℝ) :
    (momT1 a s).mulAssign c = momT1 (a.map fun p => (p.1 * c, p.2)) s := by
  simp only [momT1, SymT1.mulAssign, mom_scale]

theorem momT2_append (a b : Sources) (s : V3 ℝ) : (momT2 a s).addAssign (momT2 b s) = momT2 (a ++ b) s := by
  simp only [momT2, SymT2.addAssign, mom_append]

theorem momT2_scale (a : Sources) (s : V3 ℝ) (c : ℝ) :
    (momT2 a s).mulAssign c = momT2 (a.map fun p => (p.1 * c, p.2)) s := by
  simp only [momT2, SymT2.mulAssign, mom_scale]

theorem momT3_append (a b : Sources) (s : V3 ℝ) : (momT3 a s).addAssign (momT3 b s) = momT3 (a ++ b) s := by
  simp only [momT3, SymT3.addAssign, mom_append]

theorem momT3_scale (a : Sources) (s : V3 ℝ) (c : ℝ) :
    (momT3 a s).mulAssign c = momT3 (a.map fun p => (p.1 * c, p.2)) s := by
  simp only [momT3, SymT3.mulAssign, mom_scale]

theorem momT4_append (a b : Sources) (s : V3 ℝ) : (momT4 a s).addAssign (momT4 b s) = momT4 (a ++ b) s := by
  simp only [momT4, SymT4.addAssign, mom_append]

theorem momT4_scale (a : Sources) (s : V3 ℝ) (c : ℝ) :
    (momT4 a s).mulAssign c = momT4 (a.map fun p => (p.1 * c, p.2)) s := by
  simp only [momT4, SymT4.mulAssign, mom_scale]

theorem momT5_append (a b : Sources) (s : V3 ℝ) : (momT5 a s).addAssign (momT5 b s) = momT5 (a ++ b) s := by
  simp only [momT5, SymT5.addAssign, mom_append]

theorem momT5_scale (a : Sources) (s : V3 ℝ) (c : ℝ) :
    (momT5 a s).mulAssign c = momT5 (a.map fun p => (p.1 * c, p.2)) s := by
  simp only [momT5, SymT5.mulAssign, mom_scale]

theorem moments0_zeros (s : V3 ℝ) : IsMoments0 Coll00.zeros [] s := by
  rw [isMoments0_iff]
  simp only [Coll00.zeros, mom, List.map_nil, List.sum_nil]

theorem moments0_add {A B : Coll00} {a b : Sources} {s : V3 ℝ} (hA : IsMoments0 A a s) (hB : IsMoments0 B b s) :
    IsMoments0 (A.addAssign B) (a ++ b) s := by
  rw [isMoments0_iff] at *
  subst hA hB
  simp only [Coll00.addAssign, mom_append]

theorem moments0_scale {A : Coll00} {a : Sources} {s : V3 ℝ} (hA : IsMoments0 A a s) (c : ℝ) :
    IsMoments0 (A.mulAssign c) (a.map fun p => (p.1 * c, p.2)) s := by
  rw [isMoments0_iff] at *
  subst hA
  simp only [Coll00.mulAssign, mom_scale]

theorem moments0_single (x s : V3 ℝ) : IsMoments0 (Coll00.from_vec (x - s)) [(1, x)] s := by
  rw [isMoments0_iff]
  simp only [Coll00.from_vec, vsub, mom_single, List.map_cons, List.map_nil, List.prod_cons,
    List.prod_nil, ix, one_mul, mul_one]

theorem offset0_moments {Q : Coll00} {src : Sources} {s t : V3 ℝ} (h : IsMoments0 Q src s) :
    IsMoments0 (offset_multipole00 Q s t) src t := by
  rw [isMoments0_iff] at *
  subst h
  rfl

theorem moments1_zeros (s : V3 ℝ) : IsMoments1 Coll01.zeros [] s := by
  rw [isMoments1_iff]
  simp only [Coll01.zeros, momT1_nil, mom, List.map_nil, List.sum_nil]

theorem moments1_add {A B : Coll01} {a b : Sources} {s : V3 ℝ} (hA : IsMoments1 A a s) (hB : IsMoments1 B b s) :
    IsMoments1 (A.addAssign B) (a ++ b) s := by
  rw [isMoments1_iff] at *
  subst hA hB
  simp only [Coll01.addAssign, mom_append, momT1_append]

theorem moments1_scale {A : Coll01} {a : Sources} {s : V3 ℝ} (hA : IsMoments1 A a s) (c : ℝ) :
    IsMoments1 (A.mulAssign c) (a.map fun p => (p.1 * c, p.2)) s := by
  rw [isMoments1_iff] at *
  subst hA
  simp only [Coll01.mulAssign, mom_scale, momT1_scale]

theorem moments1_single (x s : V3 ℝ) : IsMoments1 (Coll01.from_vec (x - s)) [(1, x)] s := by
  rw [isMoments1_iff]
  simp only [Coll01.from_vec, vsub, mom_single, momT1, List.map_cons, List.map_nil, List.prod_cons,
    List.prod_nil, ix, one_mul, mul_one]

theorem offset1_moments {Q : Coll01} {src : Sources} {s t : V3 ℝ} (h : IsMoments1 Q src s) :
    IsMoments1 (offset_multipole01 Q s t) src t := by
  rw [isMoments1_iff] at *
  subst h
  have hd : Coll11.from_vec (s - t) = ⟨pw1 1 (s - t)⟩ := by
    simp only [Coll11.from_vec, pw1, one_mul]
  simp only [offset_multipole01, offset_multipole_delta01, hd, off1_mom]
  rfl

theorem moments2_zeros (s : V3 ℝ) : IsMoments2 Coll02.zeros [] s := by
  rw [isMoments2_iff]
  simp only [Coll02.zeros, momT1_nil, momT2_nil, mom, List.map_nil, List.sum_nil]

theorem moments2_add {A B : Coll02} {a b : Sources} {s : V3 ℝ} (hA : IsMoments2 A a s) (hB : IsMoments2 B b s) :
    IsMoments2 (A.addAssign B) (a ++ b) s := by
  rw [isMoments2_iff] at *
  subst hA hB
  simp only [Coll02.addAssign, mom_append, momT1_append, momT2_append]

theorem moments2_scale {A : Coll02} {a : Sources} {s : V3 ℝ} (hA : IsMoments2 A a s) (c : ℝ) :
    IsMoments2 (A.mulAssign c) (a.map fun p => (p.1 * c, p.2)) s := by
  rw [isMoments2_iff] at *
  subst hA
  simp only [Coll02.mulAssign, mom_scale, momT1_scale, momT2_scale]

theorem moments2_single (x s : V3 ℝ) : IsMoments2 (Coll02.from_vec (x - s)) [(1, x)] s := by
  rw [isMoments2_iff]
  simp only [Coll02.from_vec, vsub, mom_single, momT1, momT2, List.map_cons, List.map_nil, List.prod_cons,
    List.prod_nil, ix, one_mul, mul_one, Coll02.mk.injEq, true_and, SymT2.mk.injEq]
  repeat' constructor
  all_goals ring

theorem offset2_moments {Q : Coll02} {src : Sources} {s t : V3 ℝ} (h : IsMoments2 Q src s) :
    IsMoments2 (offset_multipole02 Q s t) src t := by
  rw [isMoments2_iff] at *
  subst h
  have hd : Coll11.from_vec (s - t) = ⟨pw1 1 (s - t)⟩ := by
    simp only [Coll11.from_vec, pw1, one_mul]
  simp only [offset_multipole02, offset_multipole_delta02, hd, off1_mom, off2_mom]
  rfl

theorem moments3_zeros (s : V3 ℝ) : IsMoments3 Coll03.zeros [] s := by
  rw [isMoments3_iff]
  simp only [Coll03.zeros, momT1_nil, momT2_nil, momT3_nil, mom, List.map_nil, List.sum_nil]

theorem moments3_add {A B : Coll03} {a b : Sources} {s : V3 ℝ} (hA : IsMoments3 A a s) (hB : IsMoments3 B b s) :
    IsMoments3 (A.addAssign B) (a ++ b) s := by
  rw [isMoments3_iff] at *
  subst hA hB
  simp only [Coll03.addAssign, mom_append, momT1_append, momT2_append, momT3_append]

theorem moments3_scale {A : Coll03} {a : Sources} {s : V3 ℝ} (hA : IsMoments3 A a s) (c : ℝ) :
    IsMoments3 (A.mulAssign c) (a.map fun p => (p.1 * c, p.2)) s := by
  rw [isMoments3_iff] at *
  subst hA
  simp only [Coll03.mulAssign, mom_scale, momT1_scale, momT2_scale, momT3_scale]

theorem moments3_single (x s : V3 ℝ) : IsMoments3 (Coll03.from_vec (x - s)) [(1, x)] s := by
  rw [isMoments3_iff]
  simp only [Coll03.from_vec, vsub, mom_single, momT1, momT2, momT3, List.map_cons, List.map_nil, List.prod_cons,
    List.prod_nil, ix, one_mul, mul_one, Coll03.mk.injEq, true_and, SymT2.mk.injEq, SymT3.mk.injEq]
  repeat' constructor
  all_goals ring

theorem offset3_moments {Q : Coll03} {src : Sources} {s t : V3 ℝ} (h : IsMoments3 Q src s) :
    IsMoments3 (offset_multipole03 Q s t) src t := by
  rw [isMoments3_iff] at *
  subst h
  have hd : Coll11.from_vec (s - t) = ⟨pw1 1 (s - t)⟩ := by
    simp only [Coll11.from_vec, pw1, one_mul]
  simp only [offset_multipole03, offset_multipole_delta03, hd, off1_mom, off2_mom, off3_mom]
  rfl

theorem moments4_zeros (s : V3 ℝ) : IsMoments4 Coll04.zeros [] s := by
  rw [isMoments4_iff]
  simp only [Coll04.zeros, momT1_nil, momT2_nil, momT3_nil, momT4_nil, mom, List.map_nil, List.sum_nil]

theorem moments4_add {A B : Coll04} {a b : Sources} {s : V3 ℝ} (hA : IsMoments4 A a s) (hB : IsMoments4 B b s) :
    IsMoments4 (A.addAssign B) (a ++ b) s := by
  rw [isMoments4_iff] at *
  subst hA hB
  simp only [Coll04.addAssign, mom_append, momT1_append, momT2_append, momT3_append, momT4_append]

theorem moments4_scale {A : Coll04} {a : Sources} {s : V3 ℝ} (hA : IsMoments4 A a s) (c : ℝ) :
    IsMoments4 (A.mulAssign c) (a.map fun p => (p.1 * c, p.2)) s := by
  rw [isMoments4_iff] at *
  subst hA
  simp only [Coll04.mulAssign, mom_scale, momT1_scale, momT2_scale, momT3_scale, momT4_scale]

theorem moments4_single (x s : V3 ℝ) : IsMoments4 (Coll04.from_vec (x - s)) [(1, x)] s := by
  rw [isMoments4_iff]
  simp only [Coll04.from_vec, vsub, mom_single, momT1, momT2, momT3, momT4, List.map_cons, List.map_nil, List.prod_cons,
    List.prod_nil, ix, one_mul, mul_one, Coll04.mk.injEq, true_and, SymT2.mk.injEq, SymT3.mk.injEq, SymT4.mk.injEq]
  repeat' constructor
  all_goals ring

theorem offset4_moments {Q : Coll04} {src : Sources} {s t : V3 ℝ} (h : IsMoments4 Q src s) :
    IsMoments4 (offset_multipole04 Q s t) src t := by
  rw [isMoments4_iff] at *
  subst h
  have hd : Coll12.from_vec (s - t) = ⟨pw1 1 (s - t), pw2 1 (s - t)⟩ := by
    simp only [Coll12.from_vec, pw1, pw2, one_mul, Coll12.mk.injEq, true_and, SymT2.mk.injEq]
    repeat' constructor
    all_goals ring
  simp only [offset_multipole04, offset_multipole_delta04, hd, off1_mom, off2_mom, off3_mom, off4_mom]
  rfl

theorem moments5_zeros (s : V3 ℝ) : IsMoments5 Coll05.zeros [] s := by
  rw [isMoments5_iff]
  simp only [Coll05.zeros, momT1_nil, momT2_nil, momT3_nil, momT4_nil, momT5_nil, mom, List.map_nil, List.sum_nil]

theorem moments5_add {A B : Coll05} {a b : Sources} {s : V3 ℝ} (hA : IsMoments5 A a s) (hB : IsMoments5 B b s) :
    IsMoments5 (A.addAssign B) (a ++ b) s := by
  rw [isMoments5_iff] at *
  subst hA hB
  simp only [Coll05.addAssign, mom_append, momT1_append, momT2_append, momT3_append, momT4_append, momT5_append]

theorem moments5_scale {A : Coll05} {a : Sources} {s : V3 ℝ} (hA : IsMoments5 A a s) (c : ℝ) :
    IsMoments5 (A.mulAssign c) (a.map fun p => (p.1 * c, p.2)) s := by
  rw [isMoments5_iff] at *
  subst hA
  simp only [Coll05.mulAssign, mom_scale, momT1_scale, momT2_scale, momT3_scale, momT4_scale, momT5_scale]

theorem moments5_single (x s : V3 ℝ) : IsMoments5 (Coll05.from_vec (x - s)) [(1, x)] s := by
  rw [isMoments5_iff]
  simp only [Coll05.from_vec, vsub, mom_single, momT1, momT2, momT3, momT4, momT5, List.map_cons, List.map_nil, List.prod_cons,
    List.prod_nil, ix, one_mul, mul_one, Coll05.mk.injEq, true_and, SymT2.mk.injEq, SymT3.mk.injEq, SymT4.mk.injEq, SymT5.mk.injEq]
  repeat' constructor
  all_goals ring

theorem offset5_moments {Q : Coll05} {src : Sources} {s t : V3 ℝ} (h : IsMoments5 Q src s) :
    IsMoments5 (offset_multipole05 Q s t) src t := by
  rw [isMoments5_iff] at *
  subst h
  have hd : Coll13.from_vec (s - t) = ⟨pw1 1 (s - t), pw2 1 (s - t), pw3 1 (s - t)⟩ := by
    simp only [Coll13.from_vec, pw1, pw2, pw3, one_mul, Coll13.mk.injEq, true_and, SymT2.mk.injEq, SymT3.mk.injEq]
    repeat' constructor
    all_goals ring
  simp only [offset_multipole05, offset_multipole_delta05, hd, off1_mom, off2_mom, off3_mom, off4_mom, off5_mom]
  rfl

theorem eval1 (D : Coll11) (h : V3 ℝ) (i : Fin 3) :
    ix (contract_grav_moment_to_force1 (Coll00.from_vec h) D) i = taylorField1 D h i := by
  fin_cases i
  all_goals
    simp only [contract_grav_moment_to_force1, Coll00.from_vec, taylorField1, tensor_to_sycl, V3.divBy, vadd, ix, Fin.sum_univ_three, Fin.zero_eta, Fin.mk_one, Fin.reduceFinMk, smulI1, SymT1.smul, SymT1.at]
    ring

theorem eval2 (D : Coll12) (h : V3 ℝ) (i : Fin 3) :
    ix (contract_grav_moment_to_force2 (Coll01.from_vec h) D) i = taylorField2 D h i := by
  fin_cases i
  all_goals
    simp only [contract_grav_moment_to_force2, Coll01.from_vec, taylorField2, tensor_to_sycl, V3.divBy, vadd, ix, Fin.sum_univ_three, Fin.zero_eta, Fin.mk_one, Fin.reduceFinMk, smulI1, SymT1.smul, SymT1.at, SymT2.at, SymT2.slice, mulI21, SymT2.inner1]
    ring

theorem eval3 (D : Coll13) (h : V3 ℝ) (i : Fin 3) :
    ix (contract_grav_moment_to_force3 (Coll02.from_vec h) D) i = taylorField3 D h i := by
  fin_cases i
  all_goals
    simp only [contract_grav_moment_to_force3, Coll02.from_vec, taylorField3, tensor_to_sycl, V3.divBy, vadd, ix, Fin.sum_univ_three, Fin.zero_eta, Fin.mk_one, Fin.reduceFinMk, smulI1, SymT1.smul, SymT1.at, SymT2.at, SymT3.at, SymT2.slice, SymT3.slice, mulI21, mulI32, SymT2.inner1, SymT3.inner2]
    ring

theorem eval4 (D : Coll14) (h : V3 ℝ) (i : Fin 3) :
    ix (contract_grav_moment_to_force4 (Coll03.from_vec h) D) i = taylorField4 D h i := by
  fin_cases i
  all_goals
    simp only [contract_grav_moment_to_force4, Coll03.from_vec, taylorField4, tensor_to_sycl, V3.divBy, vadd, ix, Fin.sum_univ_three, Fin.zero_eta, Fin.mk_one, Fin.reduceFinMk, smulI1, SymT1.smul, SymT1.at, SymT2.at, SymT3.at, SymT4.at, SymT2.slice, SymT3.slice, SymT4.slice, mulI21, mulI32, mulI43, SymT2.inner1, SymT3.inner2, SymT4.inner3]
    ring

theorem eval5 (D : Coll15) (h : V3 ℝ) (i : Fin 3) :
    ix (contract_grav_moment_to_force5 (Coll04.from_vec h) D) i = taylorField5 D h i := by
  fin_cases i
  all_goals
    simp only [contract_grav_moment_to_force5, Coll04.from_vec, taylorField5, tensor_to_sycl, V3.divBy, vadd, ix, Fin.sum_univ_three, Fin.zero_eta, Fin.mk_one, Fin.reduceFinMk, smulI1, SymT1.smul, SymT1.at, SymT2.at, SymT3.at, SymT4.at, SymT5.at, SymT2.slice, SymT3.slice, SymT4.slice, SymT5.slice, mulI21, mulI32, mulI43, mulI54, SymT2.inner1, SymT3.inner2, SymT4.inner3, SymT5.inner4]
    ring

theorem localShift1 (dM : Coll11) (s t x : V3 ℝ) :
    contract_grav_moment_to_force1 (Coll00.from_vec (x - t)) (offset_dM_mat11 dM s t) =
      contract_grav_moment_to_force1 (Coll00.from_vec (x - s)) dM := by
  simp only [contract_grav_moment_to_force1, Coll00.from_vec, tensor_to_sycl, V3.divBy, vadd, vsub, offset_dM_mat11, offset_dM_mat_delta11, plusI1, SymT1.plus, minusI1, SymT1.minus, smulI1, SymT1.smul, lmulI1, mulI11, SymT1.inner1]
  congr 1 <;> ring

theorem force1_add (a : Coll00) (D : Coll11) (Q R : Coll00) :
    contract_grav_moment_to_force1 a (get_dM_mat0 D (Q.addAssign R)) =
      contract_grav_moment_to_force1 a (get_dM_mat0 D Q) + contract_grav_moment_to_force1 a (get_dM_mat0 D R) := by
  simp only [contract_grav_moment_to_force1, tensor_to_sycl, V3.divBy, vadd, vsub, get_dM_mat0, plusI1, SymT1.plus, minusI1, SymT1.minus, smulI1, SymT1.smul, lmulI1, mulI11, SymT1.inner1, Coll00.addAssign]
  congr 1 <;> ring

theorem force1_pw (m : ℝ) (a b : V3 ℝ) (D : Coll11) :
    contract_grav_moment_to_force1 (Coll00.from_vec a) (get_dM_mat0 D ⟨m⟩) =
      (fun v : V3 ℝ => ⟨m * v.x, m * v.y, m * v.z⟩) (contract_grav_moment_to_force1 (Coll00.from_vec (b - a)) D) := by
  simp only [contract_grav_moment_to_force1, tensor_to_sycl, V3.divBy, vadd, vsub, get_dM_mat0, plusI1, SymT1.plus, minusI1, SymT1.minus, smulI1, SymT1.smul, lmulI1, mulI11, SymT1.inner1, Coll00.from_vec]
  congr 1 <;> ring

theorem force1 {Q : Coll00} {src : Sources} {s : V3 ℝ} (hQ : IsMoments0 Q src s) (D : Coll11) (a : V3 ℝ) (i : Fin 3) :
    ix (contract_grav_moment_to_force1 (Coll00.from_vec a) (get_dM_mat0 D Q)) i =
      (src.map fun q => q.1 * taylorField1 D ((q.2 - s) - a) i).sum := by
  rw [isMoments0_iff] at hQ
  subst hQ
  induction src with
  | nil =>
    simp only [contract_grav_moment_to_force1, tensor_to_sycl, V3.divBy, vadd, vsub, get_dM_mat0, plusI1, SymT1.plus, minusI1, SymT1.minus, smulI1, SymT1.smul, lmulI1, mulI11, SymT1.inner1, mom, List.map_nil, List.sum_nil]
    fin_cases i <;> simp [ix]
  | cons q src ih =>
    have e : (⟨mom (q :: src) s []⟩ : Coll00) =
        (⟨q.1⟩ : Coll00).addAssign ⟨mom src s []⟩ := by
      simp only [Coll00.addAssign]
      simp [mom]
    rw [e, force1_add, force1_pw, List.map_cons, List.sum_cons, ← ih, ← eval1]
    fin_cases i <;> rfl

theorem localShift2 (dM : Coll12) (s t x : V3 ℝ) :
    contract_grav_moment_to_force2 (Coll01.from_vec (x - t)) (offset_dM_mat12 dM s t) =
      contract_grav_moment_to_force2 (Coll01.from_vec (x - s)) dM := by
  simp only [contract_grav_moment_to_force2, Coll01.from_vec, tensor_to_sycl, V3.divBy, vadd, vsub, offset_dM_mat12, offset_dM_mat_delta12, plusI1, SymT1.plus, minusI1, SymT1.minus, smulI1, SymT1.smul, lmulI1, mulI11, SymT1.inner1, plusI2, SymT2.plus, minusI2, SymT2.minus, smulI2, SymT2.smul, lmulI2, mulI21, SymT2.inner1, mulI22, SymT2.inner2, lmul12I, Coll01.from_vec]
  congr 1 <;> ring

theorem force2_add (a : Coll01) (D : Coll12) (Q R : Coll01) :
    contract_grav_moment_to_force2 a (get_dM_mat1 D (Q.addAssign R)) =
      contract_grav_moment_to_force2 a (get_dM_mat1 D Q) + contract_grav_moment_to_force2 a (get_dM_mat1 D R) := by
  simp only [contract_grav_moment_to_force2, tensor_to_sycl, V3.divBy, vadd, vsub, get_dM_mat1, plusI1, SymT1.plus, minusI1, SymT1.minus, smulI1, SymT1.smul, lmulI1, mulI11, SymT1.inner1, plusI2, SymT2.plus, minusI2, SymT2.minus, smulI2, SymT2.smul, lmulI2, mulI21, SymT2.inner1, mulI22, SymT2.inner2, lmul12I, Coll01.addAssign, SymT1.addAssign]
  congr 1 <;> ring

theorem force2_pw (m : ℝ) (a b : V3 ℝ) (D : Coll12) :
    contract_grav_moment_to_force2 (Coll01.from_vec a) (get_dM_mat1 D ⟨m, pw1 m b⟩) =
      (fun v : V3 ℝ => ⟨m * v.x, m * v.y, m * v.z⟩) (contract_grav_moment_to_force2 (Coll01.from_vec (b - a)) D) := by
  simp only [contract_grav_moment_to_force2, tensor_to_sycl, V3.divBy, vadd, vsub, get_dM_mat1, plusI1, SymT1.plus, minusI1, SymT1.minus, smulI1, SymT1.smul, lmulI1, mulI11, SymT1.inner1, plusI2, SymT2.plus, minusI2, SymT2.minus, smulI2, SymT2.smul, lmulI2, mulI21, SymT2.inner1, mulI22, SymT2.inner2, lmul12I, Coll01.from_vec, pw1]
  congr 1 <;> ring

theorem force2 {Q : Coll01} {src : Sources} {s : V3 ℝ} (hQ : IsMoments1 Q src s) (D : Coll12) (a : V3 ℝ) (i : Fin 3) :
    ix (contract_grav_moment_to_force2 (Coll01.from_vec a) (get_dM_mat1 D Q)) i =
      (src.map fun q => q.1 * taylorField2 D ((q.2 - s) - a) i).sum := by
  rw [isMoments1_iff] at hQ
  subst hQ
  induction src with
  | nil =>
    simp only [contract_grav_moment_to_force2, tensor_to_sycl, V3.divBy, vadd, vsub, get_dM_mat1, plusI1, SymT1.plus, minusI1, SymT1.minus, smulI1, SymT1.smul, lmulI1, mulI11, SymT1.inner1, plusI2, SymT2.plus, minusI2, SymT2.minus, smulI2, SymT2.smul, lmulI2, mulI21, SymT2.inner1, mulI22, SymT2.inner2, lmul12I, mom, List.map_nil, List.sum_nil, momT1_nil]
    fin_cases i <;> simp [ix]
  | cons q src ih =>
    have e : (⟨mom (q :: src) s [], momT1 (q :: src) s⟩ : Coll01) =
        (⟨q.1, pw1 q.1 (q.2 - s)⟩ : Coll01).addAssign ⟨mom src s [], momT1 src s⟩ := by
      simp only [Coll01.addAssign, momT1_cons, plusI1, SymT1.plus, SymT1.addAssign]
      simp [mom]
    rw [e, force2_add, force2_pw, List.map_cons, List.sum_cons, ← ih, ← eval2]
    fin_cases i <;> rfl

theorem localShift3 (dM : Coll13) (s t x : V3 ℝ) :
    contract_grav_moment_to_force3 (Coll02.from_vec (x - t)) (offset_dM_mat13 dM s t) =
      contract_grav_moment_to_force3 (Coll02.from_vec (x - s)) dM := by
  simp only [contract_grav_moment_to_force3, Coll02.from_vec, tensor_to_sycl, V3.divBy, vadd, vsub, offset_dM_mat13, offset_dM_mat_delta13, plusI1, SymT1.plus, minusI1, SymT1.minus, smulI1, SymT1.smul, lmulI1, mulI11, SymT1.inner1, plusI2, SymT2.plus, minusI2, SymT2.minus, smulI2, SymT2.smul, lmulI2, mulI21, SymT2.inner1, mulI22, SymT2.inner2, lmul12I, plusI3, SymT3.plus, minusI3, SymT3.minus, smulI3, SymT3.smul, lmulI3, mulI31, SymT3.inner1, mulI32, SymT3.inner2, mulI33, SymT3.inner3, lmul13I, lmul23I, Coll03.from_vec]
  congr 1 <;> ring

theorem force3_add (a : Coll02) (D : Coll13) (Q R : Coll02) :
    contract_grav_moment_to_force3 a (get_dM_mat2 D (Q.addAssign R)) =
      contract_grav_moment_to_force3 a (get_dM_mat2 D Q) + contract_grav_moment_to_force3 a (get_dM_mat2 D R) := by
  simp only [contract_grav_moment_to_force3, tensor_to_sycl, V3.divBy, vadd, vsub, get_dM_mat2, plusI1, SymT1.plus, minusI1, SymT1.minus, smulI1, SymT1.smul, lmulI1, mulI11, SymT1.inner1, plusI2, SymT2.plus, minusI2, SymT2.minus, smulI2, SymT2.smul, lmulI2, mulI21, SymT2.inner1, mulI22, SymT2.inner2, lmul12I, plusI3, SymT3.plus, minusI3, SymT3.minus, smulI3, SymT3.smul, lmulI3, mulI31, SymT3.inner1, mulI32, SymT3.inner2, mulI33, SymT3.inner3, lmul13I, lmul23I, Coll02.addAssign, SymT1.addAssign, SymT2.addAssign]
  congr 1 <;> ring

theorem force3_pw (m : ℝ) (a b : V3 ℝ) (D : Coll13) :
    contract_grav_moment_to_force3 (Coll02.from_vec a) (get_dM_mat2 D ⟨m, pw1 m b, pw2 m b⟩) =
      (fun v : V3 ℝ => ⟨m * v.x, m * v.y, m * v.z⟩) (contract_grav_moment_to_force3 (Coll02.from_vec (b - a)) D) := by
  simp only [contract_grav_moment_to_force3, tensor_to_sycl, V3.divBy, vadd, vsub, get_dM_mat2, plusI1, SymT1.plus, minusI1, SymT1.minus, smulI1, SymT1.smul, lmulI1, mulI11, SymT1.inner1, plusI2, SymT2.plus, minusI2, SymT2.minus, smulI2, SymT2.smul, lmulI2, mulI21, SymT2.inner1, mulI22, SymT2.inner2, lmul12I, plusI3, SymT3.plus, minusI3, SymT3.minus, smulI3, SymT3.smul, lmulI3, mulI31, SymT3.inner1, mulI32, SymT3.inner2, mulI33, SymT3.inner3, lmul13I, lmul23I, Coll02.from_vec, pw1, pw2]
  congr 1 <;> ring

theorem force3 {Q : Coll02} {src : Sources} {s : V3 ℝ} (hQ : IsMoments2 Q src s) (D : Coll13) (a : V3 ℝ) (i : Fin 3) :
    ix (contract_grav_moment_to_force3 (Coll02.from_vec a) (get_dM_mat2 D Q)) i =
      (src.map fun q => q.1 * taylorField3 D ((q.2 - s) - a) i).sum := by
  rw [isMoments2_iff] at hQ
  subst hQ
  induction src with
  | nil =>
    simp only [contract_grav_moment_to_force3, tensor_to_sycl, V3.divBy, vadd, vsub, get_dM_mat2, plusI1, SymT1.plus, minusI1, SymT1.minus, smulI1, SymT1.smul, lmulI1, mulI11, SymT1.inner1, plusI2, SymT2.plus, minusI2, SymT2.minus, smulI2, SymT2.smul, lmulI2, mulI21, SymT2.inner1, mulI22, SymT2.inner2, lmul12I, plusI3, SymT3.plus, minusI3, SymT3.minus, smulI3, SymT3.smul, lmulI3, mulI31, SymT3.inner1, mulI32, SymT3.inner2, mulI33, SymT3.inner3, lmul13I, lmul23I, mom, List.map_nil, List.sum_nil, momT1_nil, momT2_nil]
    fin_cases i <;> simp [ix]
  | cons q src ih =>
    have e : (⟨mom (q :: src) s [], momT1 (q :: src) s, momT2 (q :: src) s⟩ : Coll02) =
        (⟨q.1, pw1 q.1 (q.2 - s), pw2 q.1 (q.2 - s)⟩ : Coll02).addAssign ⟨mom src s [], momT1 src s, momT2 src s⟩ := by
      simp only [Coll02.addAssign, momT1_cons, plusI1, SymT1.plus, SymT1.addAssign, momT2_cons, plusI2, SymT2.plus, SymT2.addAssign]
      simp [mom]
    rw [e, force3_add, force3_pw, List.map_cons, List.sum_cons, ← ih, ← eval3]
    fin_cases i <;> rfl

theorem localShift4 (dM : Coll14) (s t x : V3 ℝ) :
    contract_grav_moment_to_force4 (Coll03.from_vec (x - t)) (offset_dM_mat14 dM s t) =
      contract_grav_moment_to_force4 (Coll03.from_vec (x - s)) dM := by
  simp only [contract_grav_moment_to_force4, Coll03.from_vec, tensor_to_sycl, V3.divBy, vadd, vsub, offset_dM_mat14, offset_dM_mat_delta14, plusI1, SymT1.plus, minusI1, SymT1.minus, smulI1, SymT1.smul, lmulI1, mulI11, SymT1.inner1, plusI2, SymT2.plus, minusI2, SymT2.minus, smulI2, SymT2.smul, lmulI2, mulI21, SymT2.inner1, mulI22, SymT2.inner2, lmul12I, plusI3, SymT3.plus, minusI3, SymT3.minus, smulI3, SymT3.smul, lmulI3, mulI31, SymT3.inner1, mulI32, SymT3.inner2, mulI33, SymT3.inner3, lmul13I, lmul23I, plusI4, SymT4.plus, minusI4, SymT4.minus, smulI4, SymT4.smul, lmulI4, mulI41, SymT4.inner1, mulI42, SymT4.inner2, mulI43, SymT4.inner3, mulI44, SymT4.inner4, lmul14I, lmul24I, lmul34I, Coll04.from_vec]
  congr 1 <;> ring

theorem force4_add (a : Coll03) (D : Coll14) (Q R : Coll03) :
    contract_grav_moment_to_force4 a (get_dM_mat3 D (Q.addAssign R)) =
      contract_grav_moment_to_force4 a (get_dM_mat3 D Q) + contract_grav_moment_to_force4 a (get_dM_mat3 D R) := by
  simp only [contract_grav_moment_to_force4, tensor_to_sycl, V3.divBy, vadd, vsub, get_dM_mat3, plusI1, SymT1.plus, minusI1, SymT1.minus, smulI1, SymT1.smul, lmulI1, mulI11, SymT1.inner1, plusI2, SymT2.plus, minusI2, SymT2.minus, smulI2, SymT2.smul, lmulI2, mulI21, SymT2.inner1, mulI22, SymT2.inner2, lmul12I, plusI3, SymT3.plus, minusI3, SymT3.minus, smulI3, SymT3.smul, lmulI3, mulI31, SymT3.inner1, mulI32, SymT3.inner2, mulI33, SymT3.inner3, lmul13I, lmul23I, plusI4, SymT4.plus, minusI4, SymT4.minus, smulI4, SymT4.smul, lmulI4, mulI41, SymT4.inner1, mulI42, SymT4.inner2, mulI43, SymT4.inner3, mulI44, SymT4.inner4, lmul14I, lmul24I, lmul34I, Coll03.addAssign, SymT1.addAssign, SymT2.addAssign, SymT3.addAssign]
  congr 1 <;> ring

theorem force4_pw (m : ℝ) (a b : V3 ℝ) (D : Coll14) :
    contract_grav_moment_to_force4 (Coll03.from_vec a) (get_dM_mat3 D ⟨m, pw1 m b, pw2 m b, pw3 m b⟩) =
      (fun v : V3 ℝ => ⟨m * v.x, m * v.y, m * v.z⟩) (contract_grav_moment_to_force4 (Coll03.from_vec (b - a)) D) := by
  simp only [contract_grav_moment_to_force4, tensor_to_sycl, V3.divBy, vadd, vsub, get_dM_mat3, plusI1, SymT1.plus, minusI1, SymT1.minus, smulI1, SymT1.smul, lmulI1, mulI11, SymT1.inner1, plusI2, SymT2.plus, minusI2, SymT2.minus, smulI2, SymT2.smul, lmulI2, mulI21, SymT2.inner1, mulI22, SymT2.inner2, lmul12I, plusI3, SymT3.plus, minusI3, SymT3.minus, smulI3, SymT3.smul, lmulI3, mulI31, SymT3.inner1, mulI32, SymT3.inner2, mulI33, SymT3.inner3, lmul13I, lmul23I, plusI4, SymT4.plus, minusI4, SymT4.minus, smulI4, SymT4.smul, lmulI4, mulI41, SymT4.inner1, mulI42, SymT4.inner2, mulI43, SymT4.inner3, mulI44, SymT4.inner4, lmul14I, lmul24I, lmul34I, Coll03.from_vec, pw1, pw2, pw3]
  congr 1 <;> ring

theorem force4 {Q : Coll03} {src : Sources} {s : V3 ℝ} (hQ : IsMoments3 Q src s) (D : Coll14) (a : V3 ℝ) (i : Fin 3) :
    ix (contract_grav_moment_to_force4 (Coll03.from_vec a) (get_dM_mat3 D Q)) i =
      (src.map fun q => q.1 * taylorField4 D ((q.2 - s) - a) i).sum := by
  rw [isMoments3_iff] at hQ
  subst hQ
  induction src with
  | nil =>
    simp only [contract_grav_moment_to_force4, tensor_to_sycl, V3.divBy, vadd, vsub, get_dM_mat3, plusI1, SymT1.plus, minusI1, SymT1.minus, smulI1, SymT1.smul, lmulI1, mulI11, SymT1.inner1, plusI2, SymT2.plus, minusI2, SymT2.minus, smulI2, SymT2.smul, lmulI2, mulI21, SymT2.inner1, mulI22, SymT2.inner2, lmul12I, plusI3, SymT3.plus, minusI3, SymT3.minus, smulI3, SymT3.smul, lmulI3, mulI31, SymT3.inner1, mulI32, SymT3.inner2, mulI33, SymT3.inner3, lmul13I, lmul23I, plusI4, SymT4.plus, minusI4, SymT4.minus, smulI4, SymT4.smul, lmulI4, mulI41, SymT4.inner1, mulI42, SymT4.inner2, mulI43, SymT4.inner3, mulI44, SymT4.inner4, lmul14I, lmul24I, lmul34I, mom, List.map_nil, List.sum_nil, momT1_nil, momT2_nil, momT3_nil]
    fin_cases i <;> simp [ix]
  | cons q src ih =>
    have e : (⟨mom (q :: src) s [], momT1 (q :: src) s, momT2 (q :: src) s, momT3 (q :: src) s⟩ : Coll03) =
        (⟨q.1, pw1 q.1 (q.2 - s), pw2 q.1 (q.2 - s), pw3 q.1 (q.2 - s)⟩ : Coll03).addAssign ⟨mom src s [], momT1 src s, momT2 src s, momT3 src s⟩ := by
      simp only [Coll03.addAssign, momT1_cons, plusI1, SymT1.plus, SymT1.addAssign, momT2_cons, plusI2, SymT2.plus, SymT2.addAssign, momT3_cons, plusI3, SymT3.plus, SymT3.addAssign]
      simp [mom]
    rw [e, force4_add, force4_pw, List.map_cons, List.sum_cons, ← ih, ← eval4]
    fin_cases i <;> rfl

theorem localShift5 (dM : Coll15) (s t x : V3 ℝ) :
    contract_grav_moment_to_force5 (Coll04.from_vec (x - t)) (offset_dM_mat15 dM s t) =
      contract_grav_moment_to_force5 (Coll04.from_vec (x - s)) dM := by
  simp only [contract_grav_moment_to_force5, Coll04.from_vec, tensor_to_sycl, V3.divBy, vadd, vsub, offset_dM_mat15, offset_dM_mat_delta15, plusI1, SymT1.plus, minusI1, SymT1.minus, smulI1, SymT1.smul, lmulI1, mulI11, SymT1.inner1, plusI2, SymT2.plus, minusI2, SymT2.minus, smulI2, SymT2.smul, lmulI2, mulI21, SymT2.inner1, mulI22, SymT2.inner2, lmul12I, plusI3, SymT3.plus, minusI3, SymT3.minus, smulI3, SymT3.smul, lmulI3, mulI31, SymT3.inner1, mulI32, SymT3.inner2, mulI33, SymT3.inner3, lmul13I, lmul23I, plusI4, SymT4.plus, minusI4, SymT4.minus, smulI4, SymT4.smul, lmulI4, mulI41, SymT4.inner1, mulI42, SymT4.inner2, mulI43, SymT4.inner3, mulI44, SymT4.inner4, lmul14I, lmul24I, lmul34I, plusI5, SymT5.plus, minusI5, SymT5.minus, smulI5, SymT5.smul, lmulI5, mulI51, SymT5.inner1, mulI52, SymT5.inner2, mulI53, SymT5.inner3, mulI54, SymT5.inner4, mulI55, SymT5.inner5, lmul15I, lmul25I, lmul35I, lmul45I, Coll05.from_vec]
  congr 1 <;> ring

theorem force5_add (a : Coll04) (D : Coll15) (Q R : Coll04) :
    contract_grav_moment_to_force5 a (get_dM_mat4 D (Q.addAssign R)) =
      contract_grav_moment_to_force5 a (get_dM_mat4 D Q) + contract_grav_moment_to_force5 a (get_dM_mat4 D R) := by
  simp only [contract_grav_moment_to_force5, tensor_to_sycl, V3.divBy, vadd, vsub, get_dM_mat4, plusI1, SymT1.plus, minusI1, SymT1.minus, smulI1, SymT1.smul, lmulI1, mulI11, SymT1.inner1, plusI2, SymT2.plus, minusI2, SymT2.minus, smulI2, SymT2.smul, lmulI2, mulI21, SymT2.inner1, mulI22, SymT2.inner2, lmul12I, plusI3, SymT3.plus, minusI3, SymT3.minus, smulI3, SymT3.smul, lmulI3, mulI31, SymT3.inner1, mulI32, SymT3.inner2, mulI33, SymT3.inner3, lmul13I, lmul23I, plusI4, SymT4.plus, minusI4, SymT4.minus, smulI4, SymT4.smul, lmulI4, mulI41, SymT4.inner1, mulI42, SymT4.inner2, mulI43, SymT4.inner3, mulI44, SymT4.inner4, lmul14I, lmul24I, lmul34I, plusI5, SymT5.plus, minusI5, SymT5.minus, smulI5, SymT5.smul, lmulI5, mulI51, SymT5.inner1, mulI52, SymT5.inner2, mulI53, SymT5.inner3, mulI54, SymT5.inner4, mulI55, SymT5.inner5, lmul15I, lmul25I, lmul35I, lmul45I, Coll04.addAssign, SymT1.addAssign, SymT2.addAssign, SymT3.addAssign, SymT4.addAssign]
  congr 1 <;> ring

theorem force5_pw (m : ℝ) (a b : V3 ℝ) (D : Coll15) :
    contract_grav_moment_to_force5 (Coll04.from_vec a) (get_dM_mat4 D ⟨m, pw1 m b, pw2 m b, pw3 m b, pw4 m b⟩) =
      (fun v : V3 ℝ => ⟨m * v.x, m * v.y, m * v.z⟩) (contract_grav_moment_to_force5 (Coll04.from_vec (b - a)) D) := by
  simp only [contract_grav_moment_to_force5, tensor_to_sycl, V3.divBy, vadd, vsub, get_dM_mat4, plusI1, SymT1.plus, minusI1, SymT1.minus, smulI1, SymT1.smul, lmulI1, mulI11, SymT1.inner1, plusI2, SymT2.plus, minusI2, SymT2.minus, smulI2, SymT2.smul, lmulI2, mulI21, SymT2.inner1, mulI22, SymT2.inner2, lmul12I, plusI3, SymT3.plus, minusI3, SymT3.minus, smulI3, SymT3.smul, lmulI3, mulI31, SymT3.inner1, mulI32, SymT3.inner2, mulI33, SymT3.inner3, lmul13I, lmul23I, plusI4, SymT4.plus, minusI4, SymT4.minus, smulI4, SymT4.smul, lmulI4, mulI41, SymT4.inner1, mulI42, SymT4.inner2, mulI43, SymT4.inner3, mulI44, SymT4.inner4, lmul14I, lmul24I, lmul34I, plusI5, SymT5.plus, minusI5, SymT5.minus, smulI5, SymT5.smul, lmulI5, mulI51, SymT5.inner1, mulI52, SymT5.inner2, mulI53, SymT5.inner3, mulI54, SymT5.inner4, mulI55, SymT5.inner5, lmul15I, lmul25I, lmul35I, lmul45I, Coll04.from_vec, pw1, pw2, pw3, pw4]
  congr 1 <;> ring

theorem force5 {Q : Coll04} {src : Sources} {s : V3 ℝ} (hQ : IsMoments4 Q src s) (D : Coll15) (a : V3 ℝ) (i : Fin 3) :
    ix (contract_grav_moment_to_force5 (Coll04.from_vec a) (get_dM_mat4 D Q)) i =
      (src.map fun q => q.1 * taylorField5 D ((q.2 - s) - a) i).sum := by
  rw [isMoments4_iff] at hQ
  subst hQ
  induction src with
  | nil =>
    simp only [contract_grav_moment_to_force5, tensor_to_sycl, V3.divBy, vadd, vsub, get_dM_mat4, plusI1, SymT1.plus, minusI1, SymT1.minus, smulI1, SymT1.smul, lmulI1, mulI11, SymT1.inner1, plusI2, SymT2.plus, minusI2, SymT2.minus, smulI2, SymT2.smul, lmulI2, mulI21, SymT2.inner1, mulI22, SymT2.inner2, lmul12I, plusI3, SymT3.plus, minusI3, SymT3.minus, smulI3, SymT3.smul, lmulI3, mulI31, SymT3.inner1, mulI32, SymT3.inner2, mulI33, SymT3.inner3, lmul13I, lmul23I, plusI4, SymT4.plus, minusI4, SymT4.minus, smulI4, SymT4.smul, lmulI4, mulI41, SymT4.inner1, mulI42, SymT4.inner2, mulI43, SymT4.inner3, mulI44, SymT4.inner4, lmul14I, lmul24I, lmul34I, plusI5, SymT5.plus, minusI5, SymT5.minus, smulI5, SymT5.smul, lmulI5, mulI51, SymT5.inner1, mulI52, SymT5.inner2, mulI53, SymT5.inner3, mulI54, SymT5.inner4, mulI55, SymT5.inner5, lmul15I, lmul25I, lmul35I, lmul45I, mom, List.map_nil, List.sum_nil, momT1_nil, momT2_nil, momT3_nil, momT4_nil]
    fin_cases i <;> simp [ix]
  | cons q src ih =>
    have e : (⟨mom (q :: src) s [], momT1 (q :: src) s, momT2 (q :: src) s, momT3 (q :: src) s, momT4 (q :: src) s⟩ : Coll04) =
        (⟨q.1, pw1 q.1 (q.2 - s), pw2 q.1 (q.2 - s), pw3 q.1 (q.2 - s), pw4 q.1 (q.2 - s)⟩ : Coll04).addAssign ⟨mom src s [], momT1 src s, momT2 src s, momT3 src s, momT4 src s⟩ := by
      simp only [Coll04.addAssign, momT1_cons, plusI1, SymT1.plus, SymT1.addAssign, momT2_cons, plusI2, SymT2.plus, SymT2.addAssign, momT3_cons, plusI3, SymT3.plus, SymT3.addAssign, momT4_cons, plusI4, SymT4.plus, SymT4.addAssign]
      simp [mom]
    rw [e, force5_add, force5_pw, List.map_cons, List.sum_cons, ← ih, ← eval5]
    fin_cases i <;> rfl

theorem pot0_add (a : V3 ℝ) (D Q R : Coll00) :
    taylorPot0 (get_M_mat00 D (Q.addAssign R)) a = taylorPot0 (get_M_mat00 D Q) a + taylorPot0 (get_M_mat00 D R) a := by
  simp only [taylorPot0, vadd, vsub, get_M_mat00, Coll00.addAssign]
  ring

theorem pot0_pw (m : ℝ) (a b : V3 ℝ) (D : Coll00) :
    taylorPot0 (get_M_mat00 D ⟨m⟩) a = m * taylorPot0 D (b - a) := by
  simp only [taylorPot0, vadd, vsub, get_M_mat00]
  ring

theorem pot0 {Q : Coll00} {src : Sources} {s : V3 ℝ} (hQ : IsMoments0 Q src s) (D : Coll00) (a : V3 ℝ) :
    taylorPot0 (get_M_mat00 D Q) a = (src.map fun q => q.1 * taylorPot0 D ((q.2 - s) - a)).sum := by
  rw [isMoments0_iff] at hQ
  subst hQ
  induction src with
  | nil =>
    simp only [taylorPot0, vadd, vsub, get_M_mat00, mom, List.map_nil, List.sum_nil]
    simp
  | cons q src ih =>
    have e : (⟨mom (q :: src) s []⟩ : Coll00) =
        (⟨q.1⟩ : Coll00).addAssign ⟨mom src s []⟩ := by
      simp only [Coll00.addAssign]
      simp [mom]
    rw [e, pot0_add, pot0_pw, List.map_cons, List.sum_cons, ← ih]

theorem pot1_inner (D : Coll01) (h : V3 ℝ) :
    taylorPot1 D h = D.t0 + 1 / 1 * D.t1.inner1 (pw1 1 h) := by
  simp only [taylorPot1, ix, SymT1.at, Fin.sum_univ_three, Fin.zero_eta, Fin.mk_one, Fin.reduceFinMk, SymT1.inner1, pw1]
  ring

theorem pot1_add (a : V3 ℝ) (D Q R : Coll01) :
    taylorPot1 (get_M_mat01 D (Q.addAssign R)) a = taylorPot1 (get_M_mat01 D Q) a + taylorPot1 (get_M_mat01 D R) a := by
  simp only [pot1_inner, vadd, vsub, get_M_mat01, plusI1, SymT1.plus, minusI1, SymT1.minus, smulI1, SymT1.smul, lmulI1, mulI11, SymT1.inner1, pw1, Coll01.addAssign, SymT1.addAssign]
  ring

theorem pot1_pw (m : ℝ) (a b : V3 ℝ) (D : Coll01) :
    taylorPot1 (get_M_mat01 D ⟨m, pw1 m b⟩) a = m * taylorPot1 D (b - a) := by
  simp only [pot1_inner, vadd, vsub, get_M_mat01, plusI1, SymT1.plus, minusI1, SymT1.minus, smulI1, SymT1.smul, lmulI1, mulI11, SymT1.inner1, pw1, pw1]
  ring

theorem pot1 {Q : Coll01} {src : Sources} {s : V3 ℝ} (hQ : IsMoments1 Q src s) (D : Coll01) (a : V3 ℝ) :
    taylorPot1 (get_M_mat01 D Q) a = (src.map fun q => q.1 * taylorPot1 D ((q.2 - s) - a)).sum := by
  rw [isMoments1_iff] at hQ
  subst hQ
  induction src with
  | nil =>
    simp only [pot1_inner, vadd, vsub, get_M_mat01, plusI1, SymT1.plus, minusI1, SymT1.minus, smulI1, SymT1.smul, lmulI1, mulI11, SymT1.inner1, pw1, mom, List.map_nil, List.sum_nil, momT1_nil]
    ring
  | cons q src ih =>
    have e : (⟨mom (q :: src) s [], momT1 (q :: src) s⟩ : Coll01) =
        (⟨q.1, pw1 q.1 (q.2 - s)⟩ : Coll01).addAssign ⟨mom src s [], momT1 src s⟩ := by
      simp only [Coll01.addAssign, momT1_cons, plusI1, SymT1.plus, SymT1.addAssign]
      simp [mom]
    rw [e, pot1_add, pot1_pw, List.map_cons, List.sum_cons, ← ih]

theorem pot2_inner (D : Coll02) (h : V3 ℝ) :
    taylorPot2 D h = D.t0 + 1 / 1 * D.t1.inner1 (pw1 1 h) + 1 / 2 * D.t2.inner2 (pw2 1 h) := by
  simp only [taylorPot2, ix, SymT1.at, SymT2.at, SymT2.slice, Fin.sum_univ_three, Fin.zero_eta, Fin.mk_one, Fin.reduceFinMk, SymT1.inner1, SymT2.inner2, pw1, pw2]
  ring

theorem pot2_add (a : V3 ℝ) (D Q R : Coll02) :
    taylorPot2 (get_M_mat02 D (Q.addAssign R)) a = taylorPot2 (get_M_mat02 D Q) a + taylorPot2 (get_M_mat02 D R) a := by
  simp only [pot2_inner, vadd, vsub, get_M_mat02, plusI1, SymT1.plus, minusI1, SymT1.minus, smulI1, SymT1.smul, lmulI1, mulI11, SymT1.inner1, plusI2, SymT2.plus, minusI2, SymT2.minus, smulI2, SymT2.smul, lmulI2, mulI21, SymT2.inner1, mulI22, SymT2.inner2, lmul12I, pw1, pw2, Coll02.addAssign, SymT1.addAssign, SymT2.addAssign]
  ring

theorem pot2_pw (m : ℝ) (a b : V3 ℝ) (D : Coll02) :
    taylorPot2 (get_M_mat02 D ⟨m, pw1 m b, pw2 m b⟩) a = m * taylorPot2 D (b - a) := by
  simp only [pot2_inner, vadd, vsub, get_M_mat02, plusI1, SymT1.plus, minusI1, SymT1.minus, smulI1, SymT1.smul, lmulI1, mulI11, SymT1.inner1, plusI2, SymT2.plus, minusI2, SymT2.minus, smulI2, SymT2.smul, lmulI2, mulI21, SymT2.inner1, mulI22, SymT2.inner2, lmul12I, pw1, pw2, pw1, pw2]
  ring

theorem pot2 {Q : Coll02} {src : Sources} {s : V3 ℝ} (hQ : IsMoments2 Q src s) (D : Coll02) (a : V3 ℝ) :
    taylorPot2 (get_M_mat02 D Q) a = (src.map fun q => q.1 * taylorPot2 D ((q.2 - s) - a)).sum := by
  rw [isMoments2_iff] at hQ
  subst hQ
  induction src with
  | nil =>
    simp only [pot2_inner, vadd, vsub, get_M_mat02, plusI1, SymT1.plus, minusI1, SymT1.minus, smulI1, SymT1.smul, lmulI1, mulI11, SymT1.inner1, plusI2, SymT2.plus, minusI2, SymT2.minus, smulI2, SymT2.smul, lmulI2, mulI21, SymT2.inner1, mulI22, SymT2.inner2, lmul12I, pw1, pw2, mom, List.map_nil, List.sum_nil, momT1_nil, momT2_nil]
    ring
  | cons q src ih =>
    have e : (⟨mom (q :: src) s [], momT1 (q :: src) s, momT2 (q :: src) s⟩ : Coll02) =
        (⟨q.1, pw1 q.1 (q.2 - s), pw2 q.1 (q.2 - s)⟩ : Coll02).addAssign ⟨mom src s [], momT1 src s, momT2 src s⟩ := by
      simp only [Coll02.addAssign, momT1_cons, plusI1, SymT1.plus, SymT1.addAssign, momT2_cons, plusI2, SymT2.plus, SymT2.addAssign]
      simp [mom]
    rw [e, pot2_add, pot2_pw, List.map_cons, List.sum_cons, ← ih]

theorem pot3_inner (D : Coll03) (h : V3 ℝ) :
    taylorPot3 D h = D.t0 + 1 / 1 * D.t1.inner1 (pw1 1 h) + 1 / 2 * D.t2.inner2 (pw2 1 h) + 1 / 6 * D.t3.inner3 (pw3 1 h) := by
  simp only [taylorPot3, ix, SymT1.at, SymT2.at, SymT3.at, SymT2.slice, SymT3.slice, Fin.sum_univ_three, Fin.zero_eta, Fin.mk_one, Fin.reduceFinMk, SymT1.inner1, SymT2.inner2, SymT3.inner3, pw1, pw2, pw3]
  ring

theorem pot3_add (a : V3 ℝ) (D Q R : Coll03) :
    taylorPot3 (get_M_mat03 D (Q.addAssign R)) a = taylorPot3 (get_M_mat03 D Q) a + taylorPot3 (get_M_mat03 D R) a := by
  simp only [pot3_inner, vadd, vsub, get_M_mat03, plusI1, SymT1.plus, minusI1, SymT1.minus, smulI1, SymT1.smul, lmulI1, mulI11, SymT1.inner1, plusI2, SymT2.plus, minusI2, SymT2.minus, smulI2, SymT2.smul, lmulI2, mulI21, SymT2.inner1, mulI22, SymT2.inner2, lmul12I, plusI3, SymT3.plus, minusI3, SymT3.minus, smulI3, SymT3.smul, lmulI3, mulI31, SymT3.inner1, mulI32, SymT3.inner2, mulI33, SymT3.inner3, lmul13I, lmul23I, pw1, pw2, pw3, Coll03.addAssign, SymT1.addAssign, SymT2.addAssign, SymT3.addAssign]
  ring

theorem pot3_pw (m : ℝ) (a b : V3 ℝ) (D : Coll03) :
    taylorPot3 (get_M_mat03 D ⟨m, pw1 m b, pw2 m b, pw3 m b⟩) a = m * taylorPot3 D (b - a) := by
  simp only [pot3_inner, vadd, vsub, get_M_mat03, plusI1, SymT1.plus, minusI1, SymT1.minus, smulI1, SymT1.smul, lmulI1, mulI11, SymT1.inner1, plusI2, SymT2.plus, minusI2, SymT2.minus, smulI2, SymT2.smul, lmulI2, mulI21, SymT2.inner1, mulI22, SymT2.inner2, lmul12I, plusI3, SymT3.plus, minusI3, SymT3.minus, smulI3, SymT3.smul, lmulI3, mulI31, SymT3.inner1, mulI32, SymT3.inner2, mulI33, SymT3.inner3, lmul13I, lmul23I, pw1, pw2, pw3, pw1, pw2, pw3]
  ring

theorem pot3 {Q : Coll03} {src : Sources} {s : V3 ℝ} (hQ : IsMoments3 Q src s) (D : Coll03) (a : V3 ℝ) :
    taylorPot3 (get_M_mat03 D Q) a = (src.map fun q => q.1 * taylorPot3 D ((q.2 - s) - a)).sum := by
  rw [isMoments3_iff] at hQ
  subst hQ
  induction src with
  | nil =>
    simp only [pot3_inner, vadd, vsub, get_M_mat03, plusI1, SymT1.plus, minusI1, SymT1.minus, smulI1, SymT1.smul, lmulI1, mulI11, SymT1.inner1, plusI2, SymT2.plus, minusI2, SymT2.minus, smulI2, SymT2.smul, lmulI2, mulI21, SymT2.inner1, mulI22, SymT2.inner2, lmul12I, plusI3, SymT3.plus, minusI3, SymT3.minus, smulI3, SymT3.smul, lmulI3, mulI31, SymT3.inner1, mulI32, SymT3.inner2, mulI33, SymT3.inner3, lmul13I, lmul23I, pw1, pw2, pw3, mom, List.map_nil, List.sum_nil, momT1_nil, momT2_nil, momT3_nil]
    ring
  | cons q src ih =>
    have e : (⟨mom (q :: src) s [], momT1 (q :: src) s, momT2 (q :: src) s, momT3 (q :: src) s⟩ : Coll03) =
        (⟨q.1, pw1 q.1 (q.2 - s), pw2 q.1 (q.2 - s), pw3 q.1 (q.2 - s)⟩ : Coll03).addAssign ⟨mom src s [], momT1 src s, momT2 src s, momT3 src s⟩ := by
      simp only [Coll03.addAssign, momT1_cons, plusI1, SymT1.plus, SymT1.addAssign, momT2_cons, plusI2, SymT2.plus, SymT2.addAssign, momT3_cons, plusI3, SymT3.plus, SymT3.addAssign]
      simp [mom]
    rw [e, pot3_add, pot3_pw, List.map_cons, List.sum_cons, ← ih]

theorem pot4_inner (D : Coll04) (h : V3 ℝ) :
    taylorPot4 D h = D.t0 + 1 / 1 * D.t1.inner1 (pw1 1 h) + 1 / 2 * D.t2.inner2 (pw2 1 h) + 1 / 6 * D.t3.inner3 (pw3 1 h) + 1 / 24 * D.t4.inner4 (pw4 1 h) := by
  simp only [taylorPot4, ix, SymT1.at, SymT2.at, SymT3.at, SymT4.at, SymT2.slice, SymT3.slice, SymT4.slice, Fin.sum_univ_three, Fin.zero_eta, Fin.mk_one, Fin.reduceFinMk, SymT1.inner1, SymT2.inner2, SymT3.inner3, SymT4.inner4, pw1, pw2, pw3, pw4]
  ring

theorem pot4_add (a : V3 ℝ) (D Q R : Coll04) :
    taylorPot4 (get_M_mat04 D (Q.addAssign R)) a = taylorPot4 (get_M_mat04 D Q) a + taylorPot4 (get_M_mat04 D R) a := by
  simp only [pot4_inner, vadd, vsub, get_M_mat04, plusI1, SymT1.plus, minusI1, SymT1.minus, smulI1, SymT1.smul, lmulI1, mulI11, SymT1.inner1, plusI2, SymT2.plus, minusI2, SymT2.minus, smulI2, SymT2.smul, lmulI2, mulI21, SymT2.inner1, mulI22, SymT2.inner2, lmul12I, plusI3, SymT3.plus, minusI3, SymT3.minus, smulI3, SymT3.smul, lmulI3, mulI31, SymT3.inner1, mulI32, SymT3.inner2, mulI33, SymT3.inner3, lmul13I, lmul23I, plusI4, SymT4.plus, minusI4, SymT4.minus, smulI4, SymT4.smul, lmulI4, mulI41, SymT4.inner1, mulI42, SymT4.inner2, mulI43, SymT4.inner3, mulI44, SymT4.inner4, lmul14I, lmul24I, lmul34I, pw1, pw2, pw3, pw4, Coll04.addAssign, SymT1.addAssign, SymT2.addAssign, SymT3.addAssign, SymT4.addAssign]
  ring

theorem pot4_pw (m : ℝ) (a b : V3 ℝ) (D : Coll04) :
    taylorPot4 (get_M_mat04 D ⟨m, pw1 m b, pw2 m b, pw3 m b, pw4 m b⟩) a = m * taylorPot4 D (b - a) := by
  simp only [pot4_inner, vadd, vsub, get_M_mat04, plusI1, SymT1.plus, minusI1, SymT1.minus, smulI1, SymT1.smul, lmulI1, mulI11, SymT1.inner1, plusI2, SymT2.plus, minusI2, SymT2.minus, smulI2, SymT2.smul, lmulI2, mulI21, SymT2.inner1, mulI22, SymT2.inner2, lmul12I, plusI3, SymT3.plus, minusI3, SymT3.minus, smulI3, SymT3.smul, lmulI3, mulI31, SymT3.inner1, mulI32, SymT3.inner2, mulI33, SymT3.inner3, lmul13I, lmul23I, plusI4, SymT4.plus, minusI4, SymT4.minus, smulI4, SymT4.smul, lmulI4, mulI41, SymT4.inner1, mulI42, SymT4.inner2, mulI43, SymT4.inner3, mulI44, SymT4.inner4, lmul14I, lmul24I, lmul34I, pw1, pw2, pw3, pw4, pw1, pw2, pw3, pw4]
  ring

theorem pot4 {Q : Coll04} {src : Sources} {s : V3 ℝ} (hQ : IsMoments4 Q src s) (D : Coll04) (a : V3 ℝ) :
    taylorPot4 (get_M_mat04 D Q) a = (src.map fun q => q.1 * taylorPot4 D ((q.2 - s) - a)).sum := by
  rw [isMoments4_iff] at hQ
  subst hQ
  induction src with
  | nil =>
    simp only [pot4_inner, vadd, vsub, get_M_mat04, plusI1, SymT1.plus, minusI1, SymT1.minus, smulI1, SymT1.smul, lmulI1, mulI11, SymT1.inner1, plusI2, SymT2.plus, minusI2, SymT2.minus, smulI2, SymT2.smul, lmulI2, mulI21, SymT2.inner1, mulI22, SymT2.inner2, lmul12I, plusI3, SymT3.plus, minusI3, SymT3.minus, smulI3, SymT3.smul, lmulI3, mulI31, SymT3.inner1, mulI32, SymT3.inner2, mulI33, SymT3.inner3, lmul13I, lmul23I, plusI4, SymT4.plus, minusI4, SymT4.minus, smulI4, SymT4.smul, lmulI4, mulI41, SymT4.inner1, mulI42, SymT4.inner2, mulI43, SymT4.inner3, mulI44, SymT4.inner4, lmul14I, lmul24I, lmul34I, pw1, pw2, pw3, pw4, mom, List.map_nil, List.sum_nil, momT1_nil, momT2_nil, momT3_nil, momT4_nil]
    ring
  | cons q src ih =>
    have e : (⟨mom (q :: src) s [], momT1 (q :: src) s, momT2 (q :: src) s, momT3 (q :: src) s, momT4 (q :: src) s⟩ : Coll04) =
        (⟨q.1, pw1 q.1 (q.2 - s), pw2 q.1 (q.2 - s), pw3 q.1 (q.2 - s), pw4 q.1 (q.2 - s)⟩ : Coll04).addAssign ⟨mom src s [], momT1 src s, momT2 src s, momT3 src s, momT4 src s⟩ := by
      simp only [Coll04.addAssign, momT1_cons, plusI1, SymT1.plus, SymT1.addAssign, momT2_cons, plusI2, SymT2.plus, SymT2.addAssign, momT3_cons, plusI3, SymT3.plus, SymT3.addAssign, momT4_cons, plusI4, SymT4.plus, SymT4.addAssign]
      simp [mom]
    rw [e, pot4_add, pot4_pw, List.map_cons, List.sum_cons, ← ih]

set_option maxHeartbeats 4000000 in
theorem pot5_inner (D : Coll05) (h : V3 ℝ) :
    taylorPot5 D h = D.t0 + 1 / 1 * D.t1.inner1 (pw1 1 h) + 1 / 2 * D.t2.inner2 (pw2 1 h) + 1 / 6 * D.t3.inner3 (pw3 1 h) + 1 / 24 * D.t4.inner4 (pw4 1 h) + 1 / 120 * D.t5.inner5 (pw5 1 h) := by
  simp only [taylorPot5, ix, SymT1.at, SymT2.at, SymT3.at, SymT4.at, SymT5.at, SymT2.slice, SymT3.slice, SymT4.slice, SymT5.slice, Fin.sum_univ_three, Fin.zero_eta, Fin.mk_one, Fin.reduceFinMk, SymT1.inner1, SymT2.inner2, SymT3.inner3, SymT4.inner4, SymT5.inner5, pw1, pw2, pw3, pw4, pw5]
  ring

set_option maxHeartbeats 4000000 in
theorem potShift5 (M : Coll05) (s t x : V3 ℝ) :
    taylorPot5 (offset_dM_mat05 M s t) (x - t) = taylorPot5 M (x - s) := by
  simp only [pot5_inner, vadd, vsub, get_M_mat05, plusI1, SymT1.plus, minusI1, SymT1.minus, smulI1, SymT1.smul, lmulI1, mulI11, SymT1.inner1, plusI2, SymT2.plus, minusI2, SymT2.minus, smulI2, SymT2.smul, lmulI2, mulI21, SymT2.inner1, mulI22, SymT2.inner2, lmul12I, plusI3, SymT3.plus, minusI3, SymT3.minus, smulI3, SymT3.smul, lmulI3, mulI31, SymT3.inner1, mulI32, SymT3.inner2, mulI33, SymT3.inner3, lmul13I, lmul23I, plusI4, SymT4.plus, minusI4, SymT4.minus, smulI4, SymT4.smul, lmulI4, mulI41, SymT4.inner1, mulI42, SymT4.inner2, mulI43, SymT4.inner3, mulI44, SymT4.inner4, lmul14I, lmul24I, lmul34I, plusI5, SymT5.plus, minusI5, SymT5.minus, smulI5, SymT5.smul, lmulI5, mulI51, SymT5.inner1, mulI52, SymT5.inner2, mulI53, SymT5.inner3, mulI54, SymT5.inner4, mulI55, SymT5.inner5, lmul15I, lmul25I, lmul35I, lmul45I, pw1, pw2, pw3, pw4, pw5, offset_dM_mat05, offset_dM_mat_delta05, Coll05.from_vec]
  ring

set_option maxHeartbeats 4000000 in
theorem pot5_add (a : V3 ℝ) (D Q R : Coll05) :
    taylorPot5 (get_M_mat05 D (Q.addAssign R)) a = taylorPot5 (get_M_mat05 D Q) a + taylorPot5 (get_M_mat05 D R) a := by
  simp only [pot5_inner, vadd, vsub, get_M_mat05, plusI1, SymT1.plus, minusI1, SymT1.minus, smulI1, SymT1.smul, lmulI1, mulI11, SymT1.inner1, plusI2, SymT2.plus, minusI2, SymT2.minus, smulI2, SymT2.smul, lmulI2, mulI21, SymT2.inner1, mulI22, SymT2.inner2, lmul12I, plusI3, SymT3.plus, minusI3, SymT3.minus, smulI3, SymT3.smul, lmulI3, mulI31, SymT3.inner1, mulI32, SymT3.inner2, mulI33, SymT3.inner3, lmul13I, lmul23I, plusI4, SymT4.plus, minusI4, SymT4.minus, smulI4, SymT4.smul, lmulI4, mulI41, SymT4.inner1, mulI42, SymT4.inner2, mulI43, SymT4.inner3, mulI44, SymT4.inner4, lmul14I, lmul24I, lmul34I, plusI5, SymT5.plus, minusI5, SymT5.minus, smulI5, SymT5.smul, lmulI5, mulI51, SymT5.inner1, mulI52, SymT5.inner2, mulI53, SymT5.inner3, mulI54, SymT5.inner4, mulI55, SymT5.inner5, lmul15I, lmul25I, lmul35I, lmul45I, pw1, pw2, pw3, pw4, pw5, Coll05.addAssign, SymT1.addAssign, SymT2.addAssign, SymT3.addAssign, SymT4.addAssign, SymT5.addAssign]
  ring

set_option maxHeartbeats 4000000 in
theorem pot5_pw (m : ℝ) (a b : V3 ℝ) (D : Coll05) :
    taylorPot5 (get_M_mat05 D ⟨m, pw1 m b, pw2 m b, pw3 m b, pw4 m b, pw5 m b⟩) a = m * taylorPot5 D (b - a) := by
  simp only [pot5_inner, vadd, vsub, get_M_mat05, plusI1, SymT1.plus, minusI1, SymT1.minus, smulI1, SymT1.smul, lmulI1, mulI11, SymT1.inner1, plusI2, SymT2.plus, minusI2, SymT2.minus, smulI2, SymT2.smul, lmulI2, mulI21, SymT2.inner1, mulI22, SymT2.inner2, lmul12I, plusI3, SymT3.plus, minusI3, SymT3.minus, smulI3, SymT3.smul, lmulI3, mulI31, SymT3.inner1, mulI32, SymT3.inner2, mulI33, SymT3.inner3, lmul13I, lmul23I, plusI4, SymT4.plus, minusI4, SymT4.minus, smulI4, SymT4.smul, lmulI4, mulI41, SymT4.inner1, mulI42, SymT4.inner2, mulI43, SymT4.inner3, mulI44, SymT4.inner4, lmul14I, lmul24I, lmul34I, plusI5, SymT5.plus, minusI5, SymT5.minus, smulI5, SymT5.smul, lmulI5, mulI51, SymT5.inner1, mulI52, SymT5.inner2, mulI53, SymT5.inner3, mulI54, SymT5.inner4, mulI55, SymT5.inner5, lmul15I, lmul25I, lmul35I, lmul45I, pw1, pw2, pw3, pw4, pw5, pw1, pw2, pw3, pw4, pw5]
  ring

set_option maxHeartbeats 4000000 in
theorem pot5 {Q : Coll05} {src : Sources} {s : V3 ℝ} (hQ : IsMoments5 Q src s) (D : Coll05) (a : V3 ℝ) :
    taylorPot5 (get_M_mat05 D Q) a = (src.map fun q => q.1 * taylorPot5 D ((q.2 - s) - a)).sum := by
  rw [isMoments5_iff] at hQ
  subst hQ
  induction src with
  | nil =>
    simp only [pot5_inner, vadd, vsub, get_M_mat05, plusI1, SymT1.plus, minusI1, SymT1.minus, smulI1, SymT1.smul, lmulI1, mulI11, SymT1.inner1, plusI2, SymT2.plus, minusI2, SymT2.minus, smulI2, SymT2.smul, lmulI2, mulI21, SymT2.inner1, mulI22, SymT2.inner2, lmul12I, plusI3, SymT3.plus, minusI3, SymT3.minus, smulI3, SymT3.smul, lmulI3, mulI31, SymT3.inner1, mulI32, SymT3.inner2, mulI33, SymT3.inner3, lmul13I, lmul23I, plusI4, SymT4.plus, minusI4, SymT4.minus, smulI4, SymT4.smul, lmulI4, mulI41, SymT4.inner1, mulI42, SymT4.inner2, mulI43, SymT4.inner3, mulI44, SymT4.inner4, lmul14I, lmul24I, lmul34I, plusI5, SymT5.plus, minusI5, SymT5.minus, smulI5, SymT5.smul, lmulI5, mulI51, SymT5.inner1, mulI52, SymT5.inner2, mulI53, SymT5.inner3, mulI54, SymT5.inner4, mulI55, SymT5.inner5, lmul15I, lmul25I, lmul35I, lmul45I, pw1, pw2, pw3, pw4, pw5, mom, List.map_nil, List.sum_nil, momT1_nil, momT2_nil, momT3_nil, momT4_nil, momT5_nil]
    ring
  | cons q src ih =>
    have e : (⟨mom (q :: src) s [], momT1 (q :: src) s, momT2 (q :: src) s, momT3 (q :: src) s, momT4 (q :: src) s, momT5 (q :: src) s⟩ : Coll05) =
        (⟨q.1, pw1 q.1 (q.2 - s), pw2 q.1 (q.2 - s), pw3 q.1 (q.2 - s), pw4 q.1 (q.2 - s), pw5 q.1 (q.2 - s)⟩ : Coll05).addAssign ⟨mom src s [], momT1 src s, momT2 src s, momT3 src s, momT4 src s, momT5 src s⟩ := by
      simp only [Coll05.addAssign, momT1_cons, plusI1, SymT1.plus, SymT1.addAssign, momT2_cons, plusI2, SymT2.plus, SymT2.addAssign, momT3_cons, plusI3, SymT3.plus, SymT3.addAssign, momT4_cons, plusI4, SymT4.plus, SymT4.addAssign, momT5_cons, plusI5, SymT5.plus, SymT5.addAssign]
      simp [mom]
    rw [e, pot5_add, pot5_pw, List.map_cons, List.sum_cons, ← ih]

theorem direct1_add (D : Coll11) (Q R : Coll00) :
    contract_grav_moment_to_force1 (Q.addAssign R) D =
      contract_grav_moment_to_force1 Q D + contract_grav_moment_to_force1 R D := by
  simp only [contract_grav_moment_to_force1, tensor_to_sycl, V3.divBy, vadd, vsub, plusI1, SymT1.plus, minusI1, SymT1.minus, smulI1, SymT1.smul, lmulI1, mulI11, SymT1.inner1, Coll00.addAssign]
  congr 1 <;> ring

theorem direct1_pw (m : ℝ) (b : V3 ℝ) (D : Coll11) :
    contract_grav_moment_to_force1 ⟨m⟩ D =
      (fun v : V3 ℝ => ⟨m * v.x, m * v.y, m * v.z⟩) (contract_grav_moment_to_force1 (Coll00.from_vec b) D) := by
  simp only [contract_grav_moment_to_force1, tensor_to_sycl, V3.divBy, vadd, vsub, plusI1, SymT1.plus, minusI1, SymT1.minus, smulI1, SymT1.smul, lmulI1, mulI11, SymT1.inner1, Coll00.from_vec]
  congr 1 <;> ring

theorem direct1 {Q : Coll00} {src : Sources} {s : V3 ℝ} (hQ : IsMoments0 Q src s) (D : Coll11) (i : Fin 3) :
    ix (contract_grav_moment_to_force1 Q D) i = (src.map fun q => q.1 * taylorField1 D (q.2 - s) i).sum := by
  rw [isMoments0_iff] at hQ
  subst hQ
  induction src with
  | nil =>
    simp only [contract_grav_moment_to_force1, tensor_to_sycl, V3.divBy, vadd, vsub, plusI1, SymT1.plus, minusI1, SymT1.minus, smulI1, SymT1.smul, lmulI1, mulI11, SymT1.inner1, mom, List.map_nil, List.sum_nil]
    fin_cases i <;> simp [ix]
  | cons q src ih =>
    have e : (⟨mom (q :: src) s []⟩ : Coll00) =
        (⟨q.1⟩ : Coll00).addAssign ⟨mom src s []⟩ := by
      simp only [Coll00.addAssign]
      simp [mom]
    rw [e, direct1_add, direct1_pw, List.map_cons, List.sum_cons, ← ih, ← eval1]
    fin_cases i <;> rfl

theorem direct2_add (D : Coll12) (Q R : Coll01) :
    contract_grav_moment_to_force2 (Q.addAssign R) D =
      contract_grav_moment_to_force2 Q D + contract_grav_moment_to_force2 R D := by
  simp only [contract_grav_moment_to_force2, tensor_to_sycl, V3.divBy, vadd, vsub, plusI1, SymT1.plus, minusI1, SymT1.minus, smulI1, SymT1.smul, lmulI1, mulI11, SymT1.inner1, plusI2, SymT2.plus, minusI2, SymT2.minus, smulI2, SymT2.smul, lmulI2, mulI21, SymT2.inner1, mulI22, SymT2.inner2, lmul12I, Coll01.addAssign, SymT1.addAssign]
  congr 1 <;> ring

theorem direct2_pw (m : ℝ) (b : V3 ℝ) (D : Coll12) :
    contract_grav_moment_to_force2 ⟨m, pw1 m b⟩ D =
      (fun v : V3 ℝ => ⟨m * v.x, m * v.y, m * v.z⟩) (contract_grav_moment_to_force2 (Coll01.from_vec b) D) := by
  simp only [contract_grav_moment_to_force2, tensor_to_sycl, V3.divBy, vadd, vsub, plusI1, SymT1.plus, minusI1, SymT1.minus, smulI1, SymT1.smul, lmulI1, mulI11, SymT1.inner1, plusI2, SymT2.plus, minusI2, SymT2.minus, smulI2, SymT2.smul, lmulI2, mulI21, SymT2.inner1, mulI22, SymT2.inner2, lmul12I, Coll01.from_vec, pw1]
  congr 1 <;> ring

theorem direct2 {Q : Coll01} {src : Sources} {s : V3 ℝ} (hQ : IsMoments1 Q src s) (D : Coll12) (i : Fin 3) :
    ix (contract_grav_moment_to_force2 Q D) i = (src.map fun q => q.1 * taylorField2 D (q.2 - s) i).sum := by
  rw [isMoments1_iff] at hQ
  subst hQ
  induction src with
  | nil =>
    simp only [contract_grav_moment_to_force2, tensor_to_sycl, V3.divBy, vadd, vsub, plusI1, SymT1.plus, minusI1, SymT1.minus, smulI1, SymT1.smul, lmulI1, mulI11, SymT1.inner1, plusI2, SymT2.plus, minusI2, SymT2.minus, smulI2, SymT2.smul, lmulI2, mulI21, SymT2.inner1, mulI22, SymT2.inner2, lmul12I, mom, List.map_nil, List.sum_nil, momT1_nil]
    fin_cases i <;> simp [ix]
  | cons q src ih =>
    have e : (⟨mom (q :: src) s [], momT1 (q :: src) s⟩ : Coll01) =
        (⟨q.1, pw1 q.1 (q.2 - s)⟩ : Coll01).addAssign ⟨mom src s [], momT1 src s⟩ := by
      simp only [Coll01.addAssign, momT1_cons, plusI1, SymT1.plus, SymT1.addAssign]
      simp [mom]
    rw [e, direct2_add, direct2_pw, List.map_cons, List.sum_cons, ← ih, ← eval2]
    fin_cases i <;> rfl

theorem direct3_add (D : Coll13) (Q R : Coll02) :
    contract_grav_moment_to_force3 (Q.addAssign R) D =
      contract_grav_moment_to_force3 Q D + contract_grav_moment_to_force3 R D := by
  simp only [contract_grav_moment_to_force3, tensor_to_sycl, V3.divBy, vadd, vsub, plusI1, SymT1.plus, minusI1, SymT1.minus, smulI1, SymT1.smul, lmulI1, mulI11, SymT1.inner1, plusI2, SymT2.plus, minusI2, SymT2.minus, smulI2, SymT2.smul, lmulI2, mulI21, SymT2.inner1, mulI22, SymT2.inner2, lmul12I, plusI3, SymT3.plus, minusI3, SymT3.minus, smulI3, SymT3.smul, lmulI3, mulI31, SymT3.inner1, mulI32, SymT3.inner2, mulI33, SymT3.inner3, lmul13I, lmul23I, Coll02.addAssign, SymT1.addAssign, SymT2.addAssign]
  congr 1 <;> ring

theorem direct3_pw (m : ℝ) (b : V3 ℝ) (D : Coll13) :
    contract_grav_moment_to_force3 ⟨m, pw1 m b, pw2 m b⟩ D =
      (fun v : V3 ℝ => ⟨m * v.x, m * v.y, m * v.z⟩) (contract_grav_moment_to_force3 (Coll02.from_vec b) D) := by
  simp only [contract_grav_moment_to_force3, tensor_to_sycl, V3.divBy, vadd, vsub, plusI1, SymT1.plus, minusI1, SymT1.minus, smulI1, SymT1.smul, lmulI1, mulI11, SymT1.inner1, plusI2, SymT2.plus, minusI2, SymT2.minus, smulI2, SymT2.smul, lmulI2, mulI21, SymT2.inner1, mulI22, SymT2.inner2, lmul12I, plusI3, SymT3.plus, minusI3, SymT3.minus, smulI3, SymT3.smul, lmulI3, mulI31, SymT3.inner1, mulI32, SymT3.inner2, mulI33, SymT3.inner3, lmul13I, lmul23I, Coll02.from_vec, pw1, pw2]
  congr 1 <;> ring

theorem direct3 {Q : Coll02} {src : Sources} {s : V3 ℝ} (hQ : IsMoments2 Q src s) (D : Coll13) (i : Fin 3) :
    ix (contract_grav_moment_to_force3 Q D) i = (src.map fun q => q.1 * taylorField3 D (q.2 - s) i).sum := by
  rw [isMoments2_iff] at hQ
  subst hQ
  induction src with
  | nil =>
    simp only [contract_grav_moment_to_force3, tensor_to_sycl, V3.divBy, vadd, vsub, plusI1, SymT1.plus, minusI1, SymT1.minus, smulI1, SymT1.smul, lmulI1, mulI11, SymT1.inner1, plusI2, SymT2.plus, minusI2, SymT2.minus, smulI2, SymT2.smul, lmulI2, mulI21, SymT2.inner1, mulI22, SymT2.inner2, lmul12I, plusI3, SymT3.plus, minusI3, SymT3.minus, smulI3, SymT3.smul, lmulI3, mulI31, SymT3.inner1, mulI32, SymT3.inner2, mulI33, SymT3.inner3, lmul13I, lmul23I, mom, List.map_nil, List.sum_nil, momT1_nil, momT2_nil]
    fin_cases i <;> simp [ix]
  | cons q src ih =>
    have e : (⟨mom (q :: src) s [], momT1 (q :: src) s, momT2 (q :: src) s⟩ : Coll02) =
        (⟨q.1, pw1 q.1 (q.2 - s), pw2 q.1 (q.2 - s)⟩ : Coll02).addAssign ⟨mom src s [], momT1 src s, momT2 src s⟩ := by
      simp only [Coll02.addAssign, momT1_cons, plusI1, SymT1.plus, SymT1.addAssign, momT2_cons, plusI2, SymT2.plus, SymT2.addAssign]
      simp [mom]
    rw [e, direct3_add, direct3_pw, List.map_cons, List.sum_cons, ← ih, ← eval3]
    fin_cases i <;> rfl

theorem direct4_add (D : Coll14) (Q R : Coll03) :
    contract_grav_moment_to_force4 (Q.addAssign R) D =
      contract_grav_moment_to_force4 Q D + contract_grav_moment_to_force4 R D := by
  simp only [contract_grav_moment_to_force4, tensor_to_sycl, V3.divBy, vadd, vsub, plusI1, SymT1.plus, minusI1, SymT1.minus, smulI1, SymT1.smul, lmulI1, mulI11, SymT1.inner1, plusI2, SymT2.plus, minusI2, SymT2.minus, smulI2, SymT2.smul, lmulI2, mulI21, SymT2.inner1, mulI22, SymT2.inner2, lmul12I, plusI3, SymT3.plus, minusI3, SymT3.minus, smulI3, SymT3.smul, lmulI3, mulI31, SymT3.inner1, mulI32, SymT3.inner2, mulI33, SymT3.inner3, lmul13I, lmul23I, plusI4, SymT4.plus, minusI4, SymT4.minus, smulI4, SymT4.smul, lmulI4, mulI41, SymT4.inner1, mulI42, SymT4.inner2, mulI43, SymT4.inner3, mulI44, SymT4.inner4, lmul14I, lmul24I, lmul34I, Coll03.addAssign, SymT1.addAssign, SymT2.addAssign, SymT3.addAssign]
  congr 1 <;> ring

theorem direct4_pw (m : ℝ) (b : V3 ℝ) (D : Coll14) :
    contract_grav_moment_to_force4 ⟨m, pw1 m b, pw2 m b, pw3 m b⟩ D =
      (fun v : V3 ℝ => ⟨m * v.x, m * v.y, m * v.z⟩) (contract_grav_moment_to_force4 (Coll03.from_vec b) D) := by
  simp only [contract_grav_moment_to_force4, tensor_to_sycl, V3.divBy, vadd, vsub, plusI1, SymT1.plus, minusI1, SymT1.minus, smulI1, SymT1.smul, lmulI1, mulI11, SymT1.inner1, plusI2, SymT2.plus, minusI2, SymT2.minus, smulI2, SymT2.smul, lmulI2, mulI21, SymT2.inner1, mulI22, SymT2.inner2, lmul12I, plusI3, SymT3.plus, minusI3, SymT3.minus, smulI3, SymT3.smul, lmulI3, mulI31, SymT3.inner1, mulI32, SymT3.inner2, mulI33, SymT3.inner3, lmul13I, lmul23I, plusI4, SymT4.plus, minusI4, SymT4.minus, smulI4, SymT4.smul, lmulI4, mulI41, SymT4.inner1, mulI42, SymT4.inner2, mulI43, SymT4.inner3, mulI44, SymT4.inner4, lmul14I, lmul24I, lmul34I, Coll03.from_vec, pw1, pw2, pw3]
  congr 1 <;> ring

theorem direct4 {Q : Coll03} {src : Sources} {s : V3 ℝ} (hQ : IsMoments3 Q src s) (D : Coll14) (i : Fin 3) :
    ix (contract_grav_moment_to_force4 Q D) i = (src.map fun q => q.1 * taylorField4 D (q.2 - s) i).sum := by
  rw [isMoments3_iff] at hQ
  subst hQ
  induction src with
  | nil =>
    simp only [contract_grav_moment_to_force4, tensor_to_sycl, V3.divBy, vadd, vsub, plusI1, SymT1.plus, minusI1, SymT1.minus, smulI1, SymT1.smul, lmulI1, mulI11, SymT1.inner1, plusI2, SymT2.plus, minusI2, SymT2.minus, smulI2, SymT2.smul, lmulI2, mulI21, SymT2.inner1, mulI22, SymT2.inner2, lmul12I, plusI3, SymT3.plus, minusI3, SymT3.minus, smulI3, SymT3.smul, lmulI3, mulI31, SymT3.inner1, mulI32, SymT3.inner2, mulI33, SymT3.inner3, lmul13I, lmul23I, plusI4, SymT4.plus, minusI4, SymT4.minus, smulI4, SymT4.smul, lmulI4, mulI41, SymT4.inner1, mulI42, SymT4.inner2, mulI43, SymT4.inner3, mulI44, SymT4.inner4, lmul14I, lmul24I, lmul34I, mom, List.map_nil, List.sum_nil, momT1_nil, momT2_nil, momT3_nil]
    fin_cases i <;> simp [ix]
  | cons q src ih =>
    have e : (⟨mom (q :: src) s [], momT1 (q :: src) s, momT2 (q :: src) s, momT3 (q :: src) s⟩ : Coll03) =
        (⟨q.1, pw1 q.1 (q.2 - s), pw2 q.1 (q.2 - s), pw3 q.1 (q.2 - s)⟩ : Coll03).addAssign ⟨mom src s [], momT1 src s, momT2 src s, momT3 src s⟩ := by
      simp only [Coll03.addAssign, momT1_cons, plusI1, SymT1.plus, SymT1.addAssign, momT2_cons, plusI2, SymT2.plus, SymT2.addAssign, momT3_cons, plusI3, SymT3.plus, SymT3.addAssign]
      simp [mom]
    rw [e, direct4_add, direct4_pw, List.map_cons, List.sum_cons, ← ih, ← eval4]
    fin_cases i <;> rfl

theorem direct5_add (D : Coll15) (Q R : Coll04) :
    contract_grav_moment_to_force5 (Q.addAssign R) D =
      contract_grav_moment_to_force5 Q D + contract_grav_moment_to_force5 R D := by
  simp only [contract_grav_moment_to_force5, tensor_to_sycl, V3.divBy, vadd, vsub, plusI1, SymT1.plus, minusI1, SymT1.minus, smulI1, SymT1.smul, lmulI1, mulI11, SymT1.inner1, plusI2, SymT2.plus, minusI2, SymT2.minus, smulI2, SymT2.smul, lmulI2, mulI21, SymT2.inner1, mulI22, SymT2.inner2, lmul12I, plusI3, SymT3.plus, minusI3, SymT3.minus, smulI3, SymT3.smul, lmulI3, mulI31, SymT3.inner1, mulI32, SymT3.inner2, mulI33, SymT3.inner3, lmul13I, lmul23I, plusI4, SymT4.plus, minusI4, SymT4.minus, smulI4, SymT4.smul, lmulI4, mulI41, SymT4.inner1, mulI42, SymT4.inner2, mulI43, SymT4.inner3, mulI44, SymT4.inner4, lmul14I, lmul24I, lmul34I, plusI5, SymT5.plus, minusI5, SymT5.minus, smulI5, SymT5.smul, lmulI5, mulI51, SymT5.inner1, mulI52, SymT5.inner2, mulI53, SymT5.inner3, mulI54, SymT5.inner4, mulI55, SymT5.inner5, lmul15I, lmul25I, lmul35I, lmul45I, Coll04.addAssign, SymT1.addAssign, SymT2.addAssign, SymT3.addAssign, SymT4.addAssign]
  congr 1 <;> ring

theorem direct5_pw (m : ℝ) (b : V3 ℝ) (D : Coll15) :
    contract_grav_moment_to_force5 ⟨m, pw1 m b, pw2 m b, pw3 m b, pw4 m b⟩ D =
      (fun v : V3 ℝ => ⟨m * v.x, m * v.y, m * v.z⟩) (contract_grav_moment_to_force5 (Coll04.from_vec b) D) := by
  simp only [contract_grav_moment_to_force5, tensor_to_sycl, V3.divBy, vadd, vsub, plusI1, SymT1.plus, minusI1, SymT1.minus, smulI1, SymT1.smul, lmulI1, mulI11, SymT1.inner1, plusI2, SymT2.plus, minusI2, SymT2.minus, smulI2, SymT2.smul, lmulI2, mulI21, SymT2.inner1, mulI22, SymT2.inner2, lmul12I, plusI3, SymT3.plus, minusI3, SymT3.minus, smulI3, SymT3.smul, lmulI3, mulI31, SymT3.inner1, mulI32, SymT3.inner2, mulI33, SymT3.inner3, lmul13I, lmul23I, plusI4, SymT4.plus, minusI4, SymT4.minus, smulI4, SymT4.smul, lmulI4, mulI41, SymT4.inner1, mulI42, SymT4.inner2, mulI43, SymT4.inner3, mulI44, SymT4.inner4, lmul14I, lmul24I, lmul34I, plusI5, SymT5.plus, minusI5, SymT5.minus, smulI5, SymT5.smul, lmulI5, mulI51, SymT5.inner1, mulI52, SymT5.inner2, mulI53, SymT5.inner3, mulI54, SymT5.inner4, mulI55, SymT5.inner5, lmul15I, lmul25I, lmul35I, lmul45I, Coll04.from_vec, pw1, pw2, pw3, pw4]
  congr 1 <;> ring

theorem direct5 {Q : Coll04} {src : Sources} {s : V3 ℝ} (hQ : IsMoments4 Q src s) (D : Coll15) (i : Fin 3) :
    ix (contract_grav_moment_to_force5 Q D) i = (src.map fun q => q.1 * taylorField5 D (q.2 - s) i).sum := by
  rw [isMoments4_iff] at hQ
  subst hQ
  induction src with
  | nil =>
    simp only [contract_grav_moment_to_force5, tensor_to_sycl, V3.divBy, vadd, vsub, plusI1, SymT1.plus, minusI1, SymT1.minus, smulI1, SymT1.smul, lmulI1, mulI11, SymT1.inner1, plusI2, SymT2.plus, minusI2, SymT2.minus, smulI2, SymT2.smul, lmulI2, mulI21, SymT2.inner1, mulI22, SymT2.inner2, lmul12I, plusI3, SymT3.plus, minusI3, SymT3.minus, smulI3, SymT3.smul, lmulI3, mulI31, SymT3.inner1, mulI32, SymT3.inner2, mulI33, SymT3.inner3, lmul13I, lmul23I, plusI4, SymT4.plus, minusI4, SymT4.minus, smulI4, SymT4.smul, lmulI4, mulI41, SymT4.inner1, mulI42, SymT4.inner2, mulI43, SymT4.inner3, mulI44, SymT4.inner4, lmul14I, lmul24I, lmul34I, plusI5, SymT5.plus, minusI5, SymT5.minus, smulI5, SymT5.smul, lmulI5, mulI51, SymT5.inner1, mulI52, SymT5.inner2, mulI53, SymT5.inner3, mulI54, SymT5.inner4, mulI55, SymT5.inner5, lmul15I, lmul25I, lmul35I, lmul45I, mom, List.map_nil, List.sum_nil, momT1_nil, momT2_nil, momT3_nil, momT4_nil]
    fin_cases i <;> simp [ix]
  | cons q src ih =>
    have e : (⟨mom (q :: src) s [], momT1 (q :: src) s, momT2 (q :: src) s, momT3 (q :: src) s, momT4 (q :: src) s⟩ : Coll04) =
        (⟨q.1, pw1 q.1 (q.2 - s), pw2 q.1 (q.2 - s), pw3 q.1 (q.2 - s), pw4 q.1 (q.2 - s)⟩ : Coll04).addAssign ⟨mom src s [], momT1 src s, momT2 src s, momT3 src s, momT4 src s⟩ := by
      simp only [Coll04.addAssign, momT1_cons, plusI1, SymT1.plus, SymT1.addAssign, momT2_cons, plusI2, SymT2.plus, SymT2.addAssign, momT3_cons, plusI3, SymT3.plus, SymT3.addAssign, momT4_cons, plusI4, SymT4.plus, SymT4.addAssign]
      simp [mom]
    rw [e, direct5_add, direct5_pw, List.map_cons, List.sum_cons, ← ih, ← eval5]
    fin_cases i <;> rfl

end

end Shamrock.Fmm
