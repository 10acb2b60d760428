import Mathlib.Tactic.Ring
import Mathlib.Tactic.FinCases
import Verif.Model.FmmSpec

/-!
The moments of a list of point masses, and their translation by `offset_multipole`.
-/

namespace Shamrock.Fmm

open Shamrock (V3)

noncomputable section

theorem plusI1 (a b : SymT1) : a + b = a.plus b := rfl
theorem minusI1 (a b : SymT1) : a - b = a.minus b := rfl
theorem smulI1 (a : SymT1) (c : ℝ) : a * c = a.smul c := rfl
theorem lmulI1 (c : ℝ) (a : SymT1) : c * a = a.smul c := rfl
theorem plusI2 (a b : SymT2) : a + b = a.plus b := rfl
theorem minusI2 (a b : SymT2) : a - b = a.minus b := rfl
theorem smulI2 (a : SymT2) (c : ℝ) : a * c = a.smul c := rfl
theorem lmulI2 (c : ℝ) (a : SymT2) : c * a = a.smul c := rfl
theorem plusI3 (a b : SymT3) : a + b = a.plus b := rfl
theorem minusI3 (a b : SymT3) : a - b = a.minus b := rfl
theorem smulI3 (a : SymT3) (c : ℝ) : a * c = a.smul c := rfl
theorem lmulI3 (c : ℝ) (a : SymT3) : c * a = a.smul c := rfl
theorem plusI4 (a b : SymT4) : a + b = a.plus b := rfl
theorem minusI4 (a b : SymT4) : a - b = a.minus b := rfl
theorem smulI4 (a : SymT4) (c : ℝ) : a * c = a.smul c := rfl
theorem lmulI4 (c : ℝ) (a : SymT4) : c * a = a.smul c := rfl
theorem plusI5 (a b : SymT5) : a + b = a.plus b := rfl
theorem minusI5 (a b : SymT5) : a - b = a.minus b := rfl
theorem smulI5 (a : SymT5) (c : ℝ) : a * c = a.smul c := rfl
theorem lmulI5 (c : ℝ) (a : SymT5) : c * a = a.smul c := rfl
theorem vsub (a b : V3 ℝ) : a - b = ⟨a.x - b.x, a.y - b.y, a.z - b.z⟩ := rfl
theorem vadd (a b : V3 ℝ) : a + b = ⟨a.x + b.x, a.y + b.y, a.z + b.z⟩ := rfl

/-- `m` times the tensor power of `b`. -/
def pw1 (m : ℝ) (b : V3 ℝ) : SymT1 :=
  ⟨m * (b.x), m * (b.y), m * (b.z)⟩

/-- The moments of order 1 as a tensor. -/
def momT1 (src : Sources) (s : V3 ℝ) : SymT1 :=
  ⟨mom src s [0], mom src s [1], mom src s [2]⟩

theorem momT1_cons (p : ℝ × V3 ℝ) (src : Sources) (s : V3 ℝ) :
    momT1 (p :: src) s = pw1 p.1 (p.2 - s) + momT1 src s := by
  simp only [momT1, pw1, plusI1, SymT1.plus, mom, List.map_cons, List.sum_cons, ix, vsub, List.map_nil,
    List.prod_cons, List.prod_nil, mul_one, mul_assoc]

theorem momT1_nil (s : V3 ℝ) : momT1 [] s = ⟨0, 0, 0⟩ := by
  simp only [momT1, mom, List.map_nil, List.sum_nil]

/-- `m` times the tensor power of `b`. -/
def pw2 (m : ℝ) (b : V3 ℝ) : SymT2 :=
  ⟨m * (b.x * b.x), m * (b.x * b.y), m * (b.x * b.z), m * (b.y * b.y), m * (b.y * b.z), m * (b.z * b.z)⟩

/-- The moments of order 2 as a tensor. -/
def momT2 (src : Sources) (s : V3 ℝ) : SymT2 :=
  ⟨mom src s [0, 0], mom src s [0, 1], mom src s [0, 2], mom src s [1, 1], mom src s [1, 2], mom src s [2, 2]⟩

theorem momT2_cons (p : ℝ × V3 ℝ) (src : Sources) (s : V3 ℝ) :
    momT2 (p :: src) s = pw2 p.1 (p.2 - s) + momT2 src s := by
  simp only [momT2, pw2, plusI2, SymT2.plus, mom, List.map_cons, List.sum_cons, ix, vsub, List.map_nil,
    List.prod_cons, List.prod_nil, mul_one, mul_assoc]

theorem momT2_nil (s : V3 ℝ) : momT2 [] s = ⟨0, 0, 0, 0, 0, 0⟩ := by
  simp only [momT2, mom, List.map_nil, List.sum_nil]

/-- `m` times the tensor power of `b`. -/
def pw3 (m : ℝ) (b : V3 ℝ) : SymT3 :=
  ⟨m * (b.x * b.x * b.x), m * (b.x * b.x * b.y), m * (b.x * b.x * b.z), m * (b.x * b.y * b.y), m * (b.x * b.y * b.z), m * (b.x * b.z * b.z), m * (b.y * b.y * b.y), m * (b.y * b.y * b.z), m * (b.y * b.z * b.z), m * (b.z * b.z * b.z)⟩

/-- The moments of order 3 as a tensor. -/
def momT3 (src : Sources) (s : V3 ℝ) : SymT3 :=
  ⟨mom src s [0, 0, 0], mom src s [0, 0, 1], mom src s [0, 0, 2], mom src s [0, 1, 1], mom src s [0, 1, 2], mom src s [0, 2, 2], mom src s [1, 1, 1], mom src s [1, 1, 2], mom src s [1, 2, 2], mom src s [2, 2, 2]⟩

theorem momT3_cons (p : ℝ × V3 ℝ) (src : Sources) (s : V3 ℝ) :
    momT3 (p :: src) s = pw3 p.1 (p.2 - s) + momT3 src s := by
  simp only [momT3, pw3, plusI3, SymT3.plus, mom, List.map_cons, List.sum_cons, ix, vsub, List.map_nil,
    List.prod_cons, List.prod_nil, mul_one, mul_assoc]

theorem momT3_nil (s : V3 ℝ) : momT3 [] s = ⟨0, 0, 0, 0, 0, 0, 0, 0, 0, 0⟩ := by
  simp only [momT3, mom, List.map_nil, List.sum_nil]

/-- `m` times the tensor power of `b`. -/
def pw4 (m : ℝ) (b : V3 ℝ) : SymT4 :=
  ⟨m * (b.x * b.x * b.x * b.x), m * (b.x * b.x * b.x * b.y), m * (b.x * b.x * b.x * b.z), m * (b.x * b.x * b.y * b.y), m * (b.x * b.x * b.y * b.z), m * (b.x * b.x * b.z * b.z), m * (b.x * b.y * b.y * b.y), m * (b.x * b.y * b.y * b.z), m * (b.x * b.y * b.z * b.z), m * (b.x * b.z * b.z * b.z), m * (b.y * b.y * b.y * b.y), m * (b.y * b.y * b.y * b.z), m * (b.y * b.y * b.z * b.z), m * (b.y * b.z * b.z * b.z), m * (b.z * b.z * b.z * b.z)⟩

/-- The moments of order 4 as a tensor. -/
def momT4 (src : Sources) (s : V3 ℝ) : SymT4 :=
  ⟨mom src s [0, 0, 0, 0], mom src s [0, 0, 0, 1], mom src s [0, 0, 0, 2], mom src s [0, 0, 1, 1], mom src s [0, 0, 1, 2], mom src s [0, 0, 2, 2], mom src s [0, 1, 1, 1], mom src s [0, 1, 1, 2], mom src s [0, 1, 2, 2], mom src s [0, 2, 2, 2], mom src s [1, 1, 1, 1], mom src s [1, 1, 1, 2], mom src s [1, 1, 2, 2], mom src s [1, 2, 2, 2], mom src s [2, 2, 2, 2]⟩

theorem momT4_cons (p : ℝ × V3 ℝ) (src : Sources) (s : V3 ℝ) :
    momT4 (p :: src) s = pw4 p.1 (p.2 - s) + momT4 src s := by
  simp only [momT4, pw4, plusI4, SymT4.plus, mom, List.map_cons, List.sum_cons, ix, vsub, List.map_nil,
    List.prod_cons, List.prod_nil, mul_one, mul_assoc]

theorem momT4_nil (s : V3 ℝ) : momT4 [] s = ⟨0, 0, 0, 0, 0, 0, 0, 0, 0, 0, 0, 0, 0, 0, 0⟩ := by
  simp only [momT4, mom, List.map_nil, List.sum_nil]

/-- `m` times the tensor power of `b`. -/
def pw5 (m : ℝ) (b : V3 ℝ) : SymT5 :=
  ⟨m * (b.x * b.x * b.x * b.x * b.x), m * (b.x * b.x * b.x * b.x * b.y), m * (b.x * b.x * b.x * b.x * b.z), m * (b.x * b.x * b.x * b.y * b.y), m * (b.x * b.x * b.x * b.y * b.z), m * (b.x * b.x * b.x * b.z * b.z), m * (b.x * b.x * b.y * b.y * b.y), m * (b.x * b.x * b.y * b.y * b.z), m * (b.x * b.x * b.y * b.z * b.z), m * (b.x * b.x * b.z * b.z * b.z), m * (b.x * b.y * b.y * b.y * b.y), m * (b.x * b.y * b.y * b.y * b.z), m * (b.x * b.y * b.y * b.z * b.z), m * (b.x * b.y * b.z * b.z * b.z), m * (b.x * b.z * b.z * b.z * b.z), m * (b.y * b.y * b.y * b.y * b.y), m * (b.y * b.y * b.y * b.y * b.z), m * (b.y * b.y * b.y * b.z * b.z), m * (b.y * b.y * b.z * b.z * b.z), m * (b.y * b.z * b.z * b.z * b.z), m * (b.z * b.z * b.z * b.z * b.z)⟩

/-- The moments of order 5 as a tensor. -/
def momT5 (src : Sources) (s : V3 ℝ) : SymT5 :=
  ⟨mom src s [0, 0, 0, 0, 0], mom src s [0, 0, 0, 0, 1], mom src s [0, 0, 0, 0, 2], mom src s [0, 0, 0, 1, 1], mom src s [0, 0, 0, 1, 2], mom src s [0, 0, 0, 2, 2], mom src s [0, 0, 1, 1, 1], mom src s [0, 0, 1, 1, 2], mom src s [0, 0, 1, 2, 2], mom src s [0, 0, 2, 2, 2], mom src s [0, 1, 1, 1, 1], mom src s [0, 1, 1, 1, 2], mom src s [0, 1, 1, 2, 2], mom src s [0, 1, 2, 2, 2], mom src s [0, 2, 2, 2, 2], mom src s [1, 1, 1, 1, 1], mom src s [1, 1, 1, 1, 2], mom src s [1, 1, 1, 2, 2], mom src s [1, 1, 2, 2, 2], mom src s [1, 2, 2, 2, 2], mom src s [2, 2, 2, 2, 2]⟩

theorem momT5_cons (p : ℝ × V3 ℝ) (src : Sources) (s : V3 ℝ) :
    momT5 (p :: src) s = pw5 p.1 (p.2 - s) + momT5 src s := by
  simp only [momT5, pw5, plusI5, SymT5.plus, mom, List.map_cons, List.sum_cons, ix, vsub, List.map_nil,
    List.prod_cons, List.prod_nil, mul_one, mul_assoc]

theorem momT5_nil (s : V3 ℝ) : momT5 [] s = ⟨0, 0, 0, 0, 0, 0, 0, 0, 0, 0, 0, 0, 0, 0, 0, 0, 0, 0, 0, 0, 0⟩ := by
  simp only [momT5, mom, List.map_nil, List.sum_nil]

theorem mom_perm {src : Sources} {s : V3 ℝ} {a b : List (Fin 3)} (h : a.Perm b) : mom src s a = mom src s b := by
  unfold mom
  congr 1
  apply List.map_congr_left
  intro p _
  rw [(h.map _).prod_eq]

theorem momT1_at (src : Sources) (s : V3 ℝ) (i : Fin 3) :
    (momT1 src s).at i = mom src s [i] := by
  fin_cases i
  all_goals exact mom_perm (by decide)

theorem ext1 {a b : SymT1} (h : ∀ i, a.at i = b.at i) : a = b := by
  ext
  · exact h 0
  · exact h 1
  · exact h 2

theorem momT2_at (src : Sources) (s : V3 ℝ) (i j : Fin 3) :
    (momT2 src s).at i j = mom src s [i, j] := by
  fin_cases i
  all_goals fin_cases j
  all_goals exact mom_perm (by decide)

theorem ext2 {a b : SymT2} (h : ∀ i j, a.at i j = b.at i j) : a = b := by
  ext
  · exact h 0 0
  · exact h 0 1
  · exact h 0 2
  · exact h 1 1
  · exact h 1 2
  · exact h 2 2

theorem momT3_at (src : Sources) (s : V3 ℝ) (i j k : Fin 3) :
    (momT3 src s).at i j k = mom src s [i, j, k] := by
  fin_cases i
  all_goals fin_cases j
  all_goals fin_cases k
  all_goals exact mom_perm (by decide)

theorem ext3 {a b : SymT3} (h : ∀ i j k, a.at i j k = b.at i j k) : a = b := by
  ext
  · exact h 0 0 0
  · exact h 0 0 1
  · exact h 0 0 2
  · exact h 0 1 1
  · exact h 0 1 2
  · exact h 0 2 2
  · exact h 1 1 1
  · exact h 1 1 2
  · exact h 1 2 2
  · exact h 2 2 2

theorem momT4_at (src : Sources) (s : V3 ℝ) (i j k l : Fin 3) :
    (momT4 src s).at i j k l = mom src s [i, j, k, l] := by
  fin_cases i
  all_goals fin_cases j
  all_goals fin_cases k
  all_goals fin_cases l
  all_goals exact mom_perm (by decide)

theorem ext4 {a b : SymT4} (h : ∀ i j k l, a.at i j k l = b.at i j k l) : a = b := by
  ext
  · exact h 0 0 0 0
  · exact h 0 0 0 1
  · exact h 0 0 0 2
  · exact h 0 0 1 1
  · exact h 0 0 1 2
  · exact h 0 0 2 2
  · exact h 0 1 1 1
  · exact h 0 1 1 2
  · exact h 0 1 2 2
  · exact h 0 2 2 2
  · exact h 1 1 1 1
  · exact h 1 1 1 2
  · exact h 1 1 2 2
  · exact h 1 2 2 2
  · exact h 2 2 2 2

theorem momT5_at (src : Sources) (s : V3 ℝ) (i j k l m : Fin 3) :
    (momT5 src s).at i j k l m = mom src s [i, j, k, l, m] := by
  fin_cases i
  all_goals fin_cases j
  all_goals fin_cases k
  all_goals fin_cases l
  all_goals fin_cases m
  all_goals exact mom_perm (by decide)

theorem ext5 {a b : SymT5} (h : ∀ i j k l m, a.at i j k l m = b.at i j k l m) : a = b := by
  ext
  · exact h 0 0 0 0 0
  · exact h 0 0 0 0 1
  · exact h 0 0 0 0 2
  · exact h 0 0 0 1 1
  · exact h 0 0 0 1 2
  · exact h 0 0 0 2 2
  · exact h 0 0 1 1 1
  · exact h 0 0 1 1 2
  · exact h 0 0 1 2 2
  · exact h 0 0 2 2 2
  · exact h 0 1 1 1 1
  · exact h 0 1 1 1 2
  · exact h 0 1 1 2 2
  · exact h 0 1 2 2 2
  · exact h 0 2 2 2 2
  · exact h 1 1 1 1 1
  · exact h 1 1 1 1 2
  · exact h 1 1 1 2 2
  · exact h 1 1 2 2 2
  · exact h 1 2 2 2 2
  · exact h 2 2 2 2 2

theorem off1_add (Qt0 Qt0' : ℝ) (Qt1 Qt1' : SymT1) (dt1 : SymT1) :
    offset_multipole_1 (Qt0 + Qt0') (Qt1 + Qt1') dt1 =
      offset_multipole_1 Qt0 Qt1 dt1 + offset_multipole_1 Qt0' Qt1' dt1 := by
  simp only [offset_multipole_1, plusI1, SymT1.plus, lmulI1, SymT1.smul]
  ext <;> ring

theorem off1_pw (m : ℝ) (b δ : V3 ℝ) :
    offset_multipole_1 m (pw1 m b) (pw1 1 δ) = pw1 m (b + δ) := by
  simp only [offset_multipole_1, pw1, lmulI1, SymT1.smul, plusI1, SymT1.plus, vadd]
  ext <;> ring

theorem off1_mom (src : Sources) (s t : V3 ℝ) :
    offset_multipole_1 (mom src s []) (momT1 src s) (pw1 1 (s - t)) = momT1 src t := by
  induction src with
  | nil =>
    simp only [offset_multipole_1, momT1_nil, momT1_nil, mom, List.map_nil, List.sum_nil, lmulI1, SymT1.smul, plusI1, SymT1.plus]
    ext <;> ring
  | cons p src ih =>
    have hb : p.2 - t = (p.2 - s) + (s - t) := by
      simp only [vsub, vadd]
      congr 1 <;> ring
    have h0 : mom (p :: src) s [] = p.1 + mom src s [] := by simp [mom]
    simp only [h0, momT1_cons]
    rw [off1_add, ih, hb, off1_pw]

theorem off2_add (Qn1 Qn1' : SymT1) (Qt1 Qt1' : SymT1) (Qt2 Qt2' : SymT2) (dt1 : SymT1) :
    offset_multipole_2 (Qn1 + Qn1') (Qt1 + Qt1') (Qt2 + Qt2') dt1 =
      offset_multipole_2 Qn1 Qt1 Qt2 dt1 + offset_multipole_2 Qn1' Qt1' Qt2' dt1 := by
  simp only [offset_multipole_2, plusI1, plusI2, SymT1.plus, SymT2.plus]
  ext <;> ring

theorem off2_pw (m : ℝ) (b δ : V3 ℝ) :
    offset_multipole_2 (pw1 m (b + δ)) (pw1 m b) (pw2 m b) (pw1 1 δ) = pw2 m (b + δ) := by
  simp only [offset_multipole_2, pw1, pw2, vadd]
  ext <;> ring

theorem off2_mom (src : Sources) (s t : V3 ℝ) :
    offset_multipole_2 (momT1 src t) (momT1 src s) (momT2 src s) (pw1 1 (s - t)) = momT2 src t := by
  induction src with
  | nil =>
    simp only [offset_multipole_2, momT1_nil, momT1_nil, momT2_nil, momT2_nil, mom, List.map_nil, List.sum_nil]
    ext <;> ring
  | cons p src ih =>
    have hb : p.2 - t = (p.2 - s) + (s - t) := by
      simp only [vsub, vadd]
      congr 1 <;> ring
    simp only [momT1_cons, momT2_cons]
    rw [off2_add, ih, hb, off2_pw]

theorem off3_add (Qn1 Qn1' : SymT1) (Qn2 Qn2' : SymT2) (Qt2 Qt2' : SymT2) (Qt3 Qt3' : SymT3) (dt1 : SymT1) :
    offset_multipole_3 (Qn1 + Qn1') (Qn2 + Qn2') (Qt2 + Qt2') (Qt3 + Qt3') dt1 =
      offset_multipole_3 Qn1 Qn2 Qt2 Qt3 dt1 + offset_multipole_3 Qn1' Qn2' Qt2' Qt3' dt1 := by
  simp only [offset_multipole_3, plusI1, plusI2, plusI3, SymT1.plus, SymT2.plus, SymT3.plus]
  ext <;> ring

theorem off3_pw (m : ℝ) (b δ : V3 ℝ) :
    offset_multipole_3 (pw1 m (b + δ)) (pw2 m (b + δ)) (pw2 m b) (pw3 m b) (pw1 1 δ) = pw3 m (b + δ) := by
  simp only [offset_multipole_3, pw1, pw2, pw3, vadd]
  ext <;> ring

theorem off3_mom (src : Sources) (s t : V3 ℝ) :
    offset_multipole_3 (momT1 src t) (momT2 src t) (momT2 src s) (momT3 src s) (pw1 1 (s - t)) = momT3 src t := by
  induction src with
  | nil =>
    simp only [offset_multipole_3, momT1_nil, momT2_nil, momT2_nil, momT3_nil, momT3_nil, mom, List.map_nil, List.sum_nil]
    ext <;> ring
  | cons p src ih =>
    have hb : p.2 - t = (p.2 - s) + (s - t) := by
      simp only [vsub, vadd]
      congr 1 <;> ring
    simp only [momT1_cons, momT2_cons, momT3_cons]
    rw [off3_add, ih, hb, off3_pw]

theorem off4_add (Qn2 Qn2' : SymT2) (Qn3 Qn3' : SymT3) (Qt2 Qt2' : SymT2) (Qt3 Qt3' : SymT3) (Qt4 Qt4' : SymT4) (dt1 : SymT1) (dt2 : SymT2) :
    offset_multipole_4 (Qn2 + Qn2') (Qn3 + Qn3') (Qt2 + Qt2') (Qt3 + Qt3') (Qt4 + Qt4') dt1 dt2 =
      offset_multipole_4 Qn2 Qn3 Qt2 Qt3 Qt4 dt1 dt2 + offset_multipole_4 Qn2' Qn3' Qt2' Qt3' Qt4' dt1 dt2 := by
  simp only [offset_multipole_4, plusI1, plusI2, plusI3, plusI4, SymT1.plus, SymT2.plus, SymT3.plus, SymT4.plus]
  ext <;> ring

theorem off4_pw (m : ℝ) (b δ : V3 ℝ) :
    offset_multipole_4 (pw2 m (b + δ)) (pw3 m (b + δ)) (pw2 m b) (pw3 m b) (pw4 m b) (pw1 1 δ) (pw2 1 δ) = pw4 m (b + δ) := by
  simp only [offset_multipole_4, pw1, pw2, pw3, pw4, vadd]
  ext <;> ring

theorem off4_mom (src : Sources) (s t : V3 ℝ) :
    offset_multipole_4 (momT2 src t) (momT3 src t) (momT2 src s) (momT3 src s) (momT4 src s) (pw1 1 (s - t)) (pw2 1 (s - t)) = momT4 src t := by
  induction src with
  | nil =>
    simp only [offset_multipole_4, momT2_nil, momT3_nil, momT2_nil, momT3_nil, momT4_nil, momT4_nil, mom, List.map_nil, List.sum_nil]
    ext <;> ring
  | cons p src ih =>
    have hb : p.2 - t = (p.2 - s) + (s - t) := by
      simp only [vsub, vadd]
      congr 1 <;> ring
    simp only [momT2_cons, momT3_cons, momT4_cons]
    rw [off4_add, ih, hb, off4_pw]

theorem off5_add (Qn3 Qn3' : SymT3) (Qn4 Qn4' : SymT4) (Qt2 Qt2' : SymT2) (Qt3 Qt3' : SymT3) (Qt4 Qt4' : SymT4) (Qt5 Qt5' : SymT5) (dt1 : SymT1) (dt2 : SymT2) (dt3 : SymT3) :
    offset_multipole_5 (Qn3 + Qn3') (Qn4 + Qn4') (Qt2 + Qt2') (Qt3 + Qt3') (Qt4 + Qt4') (Qt5 + Qt5') dt1 dt2 dt3 =
      offset_multipole_5 Qn3 Qn4 Qt2 Qt3 Qt4 Qt5 dt1 dt2 dt3 + offset_multipole_5 Qn3' Qn4' Qt2' Qt3' Qt4' Qt5' dt1 dt2 dt3 := by
  simp only [offset_multipole_5, plusI1, plusI2, plusI3, plusI4, plusI5, SymT1.plus, SymT2.plus, SymT3.plus, SymT4.plus, SymT5.plus]
  ext <;> ring

theorem off5_pw (m : ℝ) (b δ : V3 ℝ) :
    offset_multipole_5 (pw3 m (b + δ)) (pw4 m (b + δ)) (pw2 m b) (pw3 m b) (pw4 m b) (pw5 m b) (pw1 1 δ) (pw2 1 δ) (pw3 1 δ) = pw5 m (b + δ) := by
  simp only [offset_multipole_5, pw1, pw2, pw3, pw4, pw5, vadd]
  ext <;> ring

theorem off5_mom (src : Sources) (s t : V3 ℝ) :
    offset_multipole_5 (momT3 src t) (momT4 src t) (momT2 src s) (momT3 src s) (momT4 src s) (momT5 src s) (pw1 1 (s - t)) (pw2 1 (s - t)) (pw3 1 (s - t)) = momT5 src t := by
  induction src with
  | nil =>
    simp only [offset_multipole_5, momT3_nil, momT4_nil, momT2_nil, momT3_nil, momT4_nil, momT5_nil, momT5_nil, mom, List.map_nil, List.sum_nil]
    ext <;> ring
  | cons p src ih =>
    have hb : p.2 - t = (p.2 - s) + (s - t) := by
      simp only [vsub, vadd]
      congr 1 <;> ring
    simp only [momT2_cons, momT3_cons, momT4_cons, momT5_cons]
    rw [off5_add, ih, hb, off5_pw]

theorem isMoments0_iff (Q : Coll00) (src : Sources) (s : V3 ℝ) :
    IsMoments0 Q src s ↔ Q = ⟨mom src s []⟩ := by
  constructor
  · intro h
    cases Q
    simp only [IsMoments0] at h
    rw [h]
  · intro h
    rw [h]
    rfl

theorem isMoments1_iff (Q : Coll01) (src : Sources) (s : V3 ℝ) :
    IsMoments1 Q src s ↔ Q = ⟨mom src s [], momT1 src s⟩ := by
  constructor
  · intro h
    obtain ⟨h0, h1⟩ := h
    ext1
    · exact h0
    · exact ext1 fun i => by rw [h1, momT1_at]
  · intro h
    subst h
    exact ⟨rfl, fun i => momT1_at ..⟩

theorem isMoments2_iff (Q : Coll02) (src : Sources) (s : V3 ℝ) :
    IsMoments2 Q src s ↔ Q = ⟨mom src s [], momT1 src s, momT2 src s⟩ := by
  constructor
  · intro h
    obtain ⟨h0, h1, h2⟩ := h
    ext1
    · exact h0
    · exact ext1 fun i => by rw [h1, momT1_at]
    · exact ext2 fun i j => by rw [h2, momT2_at]
  · intro h
    subst h
    exact ⟨rfl, fun i => momT1_at .., fun i j => momT2_at ..⟩

theorem isMoments3_iff (Q : Coll03) (src : Sources) (s : V3 ℝ) :
    IsMoments3 Q src s ↔ Q = ⟨mom src s [], momT1 src s, momT2 src s, momT3 src s⟩ := by
  constructor
  · intro h
    obtain ⟨h0, h1, h2, h3⟩ := h
    ext1
    · exact h0
    · exact ext1 fun i => by rw [h1, momT1_at]
    · exact ext2 fun i j => by rw [h2, momT2_at]
    · exact ext3 fun i j k => by rw [h3, momT3_at]
  · intro h
    subst h
    exact ⟨rfl, fun i => momT1_at .., fun i j => momT2_at .., fun i j k => momT3_at ..⟩

theorem isMoments4_iff (Q : Coll04) (src : Sources) (s : V3 ℝ) :
    IsMoments4 Q src s ↔ Q = ⟨mom src s [], momT1 src s, momT2 src s, momT3 src s, momT4 src s⟩ := by
  constructor
  · intro h
    obtain ⟨h0, h1, h2, h3, h4⟩ := h
    ext1
    · exact h0
    · exact ext1 fun i => by rw [h1, momT1_at]
    · exact ext2 fun i j => by rw [h2, momT2_at]
    · exact ext3 fun i j k => by rw [h3, momT3_at]
    · exact ext4 fun i j k l => by rw [h4, momT4_at]
  · intro h
    subst h
    exact ⟨rfl, fun i => momT1_at .., fun i j => momT2_at .., fun i j k => momT3_at .., fun i j k l => momT4_at ..⟩

theorem isMoments5_iff (Q : Coll05) (src : Sources) (s : V3 ℝ) :
    IsMoments5 Q src s ↔ Q = ⟨mom src s [], momT1 src s, momT2 src s, momT3 src s, momT4 src s, momT5 src s⟩ := by
  constructor
  · intro h
    obtain ⟨h0, h1, h2, h3, h4, h5⟩ := h
    ext1
    · exact h0
    · exact ext1 fun i => by rw [h1, momT1_at]
    · exact ext2 fun i j => by rw [h2, momT2_at]
    · exact ext3 fun i j k => by rw [h3, momT3_at]
    · exact ext4 fun i j k l => by rw [h4, momT4_at]
    · exact ext5 fun i j k l m => by rw [h5, momT5_at]
  · intro h
    subst h
    exact ⟨rfl, fun i => momT1_at .., fun i j => momT2_at .., fun i j k => momT3_at .., fun i j k l => momT4_at .., fun i j k l m => momT5_at ..⟩

end

end Shamrock.Fmm
