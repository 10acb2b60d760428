import Verif.Model.FmmTree
import Verif.Proof.FmmEval
import Verif.Proof.FmmTaylor

/-!
C68: the operators of the fast multipole method are exact: products of symmetric tensors are full
contractions, moments are translated exactly, the Green function tensors are the derivatives of `1 / |r|`,
and the force of a cell on a point is the sum over the sources of the Taylor polynomial of the field.
-/

namespace Shamrock.Fmm

open Shamrock (V3)

noncomputable section

/-- **C68 (contraction).** Whichever two symmetric tensors are multiplied, in whichever order, the
result is the full contraction of the lower-order one with indices of the other: every component of the
result, at any indices, is the sum over all index tuples. -/
theorem C68_contract :
    (∀ (a : SymT1) (b : SymT1), (a * b : ℝ) = ∑ i, a.at i * b.at i) ∧
    (∀ (a : SymT2) (b : SymT1) (i : Fin 3), (a * b : SymT1).at i = ∑ j, a.at i j * b.at j) ∧
    (∀ (a : SymT2) (b : SymT1) (i : Fin 3), (b * a : SymT1).at i = ∑ j, a.at i j * b.at j) ∧
    (∀ (a : SymT2) (b : SymT2), (a * b : ℝ) = ∑ i, ∑ j, a.at i j * b.at i j) ∧
    (∀ (a : SymT3) (b : SymT1) (i j : Fin 3), (a * b : SymT2).at i j = ∑ k, a.at i j k * b.at k) ∧
    (∀ (a : SymT3) (b : SymT1) (i j : Fin 3), (b * a : SymT2).at i j = ∑ k, a.at i j k * b.at k) ∧
    (∀ (a : SymT3) (b : SymT2) (i : Fin 3), (a * b : SymT1).at i = ∑ j, ∑ k, a.at i j k * b.at j k) ∧
    (∀ (a : SymT3) (b : SymT2) (i : Fin 3), (b * a : SymT1).at i = ∑ j, ∑ k, a.at i j k * b.at j k) ∧
    (∀ (a : SymT3) (b : SymT3), (a * b : ℝ) = ∑ i, ∑ j, ∑ k, a.at i j k * b.at i j k) ∧
    (∀ (a : SymT4) (b : SymT1) (i j k : Fin 3), (a * b : SymT3).at i j k = ∑ l, a.at i j k l * b.at l) ∧
    (∀ (a : SymT4) (b : SymT1) (i j k : Fin 3), (b * a : SymT3).at i j k = ∑ l, a.at i j k l * b.at l) ∧
    (∀ (a : SymT4) (b : SymT2) (i j : Fin 3), (a * b : SymT2).at i j = ∑ k, ∑ l, a.at i j k l * b.at k l) ∧
    (∀ (a : SymT4) (b : SymT2) (i j : Fin 3), (b * a : SymT2).at i j = ∑ k, ∑ l, a.at i j k l * b.at k l) ∧
    (∀ (a : SymT4) (b : SymT3) (i : Fin 3), (a * b : SymT1).at i = ∑ j, ∑ k, ∑ l, a.at i j k l * b.at j k l) ∧
    (∀ (a : SymT4) (b : SymT3) (i : Fin 3), (b * a : SymT1).at i = ∑ j, ∑ k, ∑ l, a.at i j k l * b.at j k l) ∧
    (∀ (a : SymT4) (b : SymT4), (a * b : ℝ) = ∑ i, ∑ j, ∑ k, ∑ l, a.at i j k l * b.at i j k l) ∧
    (∀ (a : SymT5) (b : SymT1) (i j k l : Fin 3), (a * b : SymT4).at i j k l = ∑ m, a.at i j k l m * b.at m) ∧
    (∀ (a : SymT5) (b : SymT1) (i j k l : Fin 3), (b * a : SymT4).at i j k l = ∑ m, a.at i j k l m * b.at m) ∧
    (∀ (a : SymT5) (b : SymT2) (i j k : Fin 3), (a * b : SymT3).at i j k = ∑ l, ∑ m, a.at i j k l m * b.at l m) ∧
    (∀ (a : SymT5) (b : SymT2) (i j k : Fin 3), (b * a : SymT3).at i j k = ∑ l, ∑ m, a.at i j k l m * b.at l m) ∧
    (∀ (a : SymT5) (b : SymT3) (i j : Fin 3), (a * b : SymT2).at i j = ∑ k, ∑ l, ∑ m, a.at i j k l m * b.at k l m) ∧
    (∀ (a : SymT5) (b : SymT3) (i j : Fin 3), (b * a : SymT2).at i j = ∑ k, ∑ l, ∑ m, a.at i j k l m * b.at k l m) ∧
    (∀ (a : SymT5) (b : SymT4) (i : Fin 3), (a * b : SymT1).at i = ∑ j, ∑ k, ∑ l, ∑ m, a.at i j k l m * b.at j k l m) ∧
    (∀ (a : SymT5) (b : SymT4) (i : Fin 3), (b * a : SymT1).at i = ∑ j, ∑ k, ∑ l, ∑ m, a.at i j k l m * b.at j k l m) ∧
    (∀ (a : SymT5) (b : SymT5), (a * b : ℝ) = ∑ i, ∑ j, ∑ k, ∑ l, ∑ m, a.at i j k l m * b.at i j k l m) :=
  ⟨con11, con21, con12, con22, con31, con13, con32, con23, con33, con41, con14, con42, con24, con43, con34, con44, con51, con15, con52, con25, con53, con35, con54, con45, con55⟩

example : ((⟨1, 2, 3, 4, 5, 6⟩ : SymT2) * (⟨7, 8, 9⟩ : SymT1) : SymT1).at 1 = 2 * 7 + 4 * 8 + 5 * 9 := by
  rw [C68_contract.2.1, Fin.sum_univ_three]
  rfl

/-- **C68 (moments of a leaf, order 0).** Accumulating the tensor powers of `x - s` over the particles of
a leaf and multiplying by the particle mass gives the mass moments of those particles about `s`. -/
theorem C68_leaf_moments_0 (xs : List (V3 ℝ)) (s : V3 ℝ) (m : ℝ) :
    IsMoments0 (leafMoments0 xs s m) (xs.map fun x => (m, x)) s := by
  have key : ∀ (ys : List (V3 ℝ)) (Q : Coll00) (src : Sources), IsMoments0 Q src s →
      IsMoments0 (ys.foldl (fun Q x => Q.addAssign (Coll00.from_vec (x - s))) Q) (src ++ ys.map fun x => (1, x)) s := by
    intro ys
    induction ys with
    | nil => intro Q src h; simpa using h
    | cons y ys ih =>
      intro Q src h
      have := ih _ _ (moments0_add h (moments0_single y s))
      simpa using this
  have h := moments0_scale (key xs _ _ (moments0_zeros s)) m
  simpa [leafMoments0, Function.comp_def] using h

/-- **C68 (moments add, order 0).** -/
theorem C68_moments_add_0 {A B : Coll00} {a b : Sources} {s : V3 ℝ} (hA : IsMoments0 A a s)
    (hB : IsMoments0 B b s) : IsMoments0 (A.addAssign B) (a ++ b) s := moments0_add hA hB

/-- **C68 (translation of moments, order 0).** `offset_multipole` maps the moments of any point masses
about one center to their moments about any other center. -/
theorem C68_multipole_shift_0 {Q : Coll00} {src : Sources} {s t : V3 ℝ} (h : IsMoments0 Q src s) :
    IsMoments0 (offset_multipole00 Q s t) src t := offset0_moments h

/-- **C68 (moments of a leaf, order 1).** Accumulating the tensor powers of `x - s` over the particles of
a leaf and multiplying by the particle mass gives the mass moments of those particles about `s`. -/
theorem C68_leaf_moments_1 (xs : List (V3 ℝ)) (s : V3 ℝ) (m : ℝ) :
    IsMoments1 (leafMoments1 xs s m) (xs.map fun x => (m, x)) s := by
  have key : ∀ (ys : List (V3 ℝ)) (Q : Coll01) (src : Sources), IsMoments1 Q src s →
      IsMoments1 (ys.foldl (fun Q x => Q.addAssign (Coll01.from_vec (x - s))) Q) (src ++ ys.map fun x => (1, x)) s := by
    intro ys
    induction ys with
    | nil => intro Q src h; simpa using h
    | cons y ys ih =>
      intro Q src h
      have := ih _ _ (moments1_add h (moments1_single y s))
      simpa using this
  have h := moments1_scale (key xs _ _ (moments1_zeros s)) m
  simpa [leafMoments1, Function.comp_def] using h

/-- **C68 (moments add, order 1).** -/
theorem C68_moments_add_1 {A B : Coll01} {a b : Sources} {s : V3 ℝ} (hA : IsMoments1 A a s)
    (hB : IsMoments1 B b s) : IsMoments1 (A.addAssign B) (a ++ b) s := moments1_add hA hB

/-- **C68 (translation of moments, order 1).** `offset_multipole` maps the moments of any point masses
about one center to their moments about any other center. -/
theorem C68_multipole_shift_1 {Q : Coll01} {src : Sources} {s t : V3 ℝ} (h : IsMoments1 Q src s) :
    IsMoments1 (offset_multipole01 Q s t) src t := offset1_moments h

/-- **C68 (moments of a leaf, order 2).** Accumulating the tensor powers of `x - s` over the particles of
a leaf and multiplying by the particle mass gives the mass moments of those particles about `s`. -/
theorem C68_leaf_moments_2 (xs : List (V3 ℝ)) (s : V3 ℝ) (m : ℝ) :
    IsMoments2 (leafMoments2 xs s m) (xs.map fun x => (m, x)) s := by
  have key : ∀ (ys : List (V3 ℝ)) (Q : Coll02) (src : Sources), IsMoments2 Q src s →
      IsMoments2 (ys.foldl (fun Q x => Q.addAssign (Coll02.from_vec (x - s))) Q) (src ++ ys.map fun x => (1, x)) s := by
    intro ys
    induction ys with
    | nil => intro Q src h; simpa using h
    | cons y ys ih =>
      intro Q src h
      have := ih _ _ (moments2_add h (moments2_single y s))
      simpa using this
  have h := moments2_scale (key xs _ _ (moments2_zeros s)) m
  simpa [leafMoments2, Function.comp_def] using h

/-- **C68 (moments add, order 2).** -/
theorem C68_moments_add_2 {A B : Coll02} {a b : Sources} {s : V3 ℝ} (hA : IsMoments2 A a s)
    (hB : IsMoments2 B b s) : IsMoments2 (A.addAssign B) (a ++ b) s := moments2_add hA hB

/-- **C68 (translation of moments, order 2).** `offset_multipole` maps the moments of any point masses
about one center to their moments about any other center. -/
theorem C68_multipole_shift_2 {Q : Coll02} {src : Sources} {s t : V3 ℝ} (h : IsMoments2 Q src s) :
    IsMoments2 (offset_multipole02 Q s t) src t := offset2_moments h

/-- **C68 (moments of a leaf, order 3).** Accumulating the tensor powers of `x - s` over the particles of
a leaf and multiplying by the particle mass gives the mass moments of those particles about `s`. -/
theorem C68_leaf_moments_3 (xs : List (V3 ℝ)) (s : V3 ℝ) (m : ℝ) :
    IsMoments3 (leafMoments3 xs s m) (xs.map fun x => (m, x)) s := by
  have key : ∀ (ys : List (V3 ℝ)) (Q : Coll03) (src : Sources), IsMoments3 Q src s →
      IsMoments3 (ys.foldl (fun Q x => Q.addAssign (Coll03.from_vec (x - s))) Q) (src ++ ys.map fun x => (1, x)) s := by
    intro ys
    induction ys with
    | nil => intro Q src h; simpa using h
    | cons y ys ih =>
      intro Q src h
      have := ih _ _ (moments3_add h (moments3_single y s))
      simpa using this
  have h := moments3_scale (key xs _ _ (moments3_zeros s)) m
  simpa [leafMoments3, Function.comp_def] using h

/-- **C68 (moments add, order 3).** -/
theorem C68_moments_add_3 {A B : Coll03} {a b : Sources} {s : V3 ℝ} (hA : IsMoments3 A a s)
    (hB : IsMoments3 B b s) : IsMoments3 (A.addAssign B) (a ++ b) s := moments3_add hA hB

/-- **C68 (translation of moments, order 3).** `offset_multipole` maps the moments of any point masses
about one center to their moments about any other center. -/
theorem C68_multipole_shift_3 {Q : Coll03} {src : Sources} {s t : V3 ℝ} (h : IsMoments3 Q src s) :
    IsMoments3 (offset_multipole03 Q s t) src t := offset3_moments h

/-- **C68 (moments of a leaf, order 4).** Accumulating the tensor powers of `x - s` over the particles of
a leaf and multiplying by the particle mass gives the mass moments of those particles about `s`. -/
theorem C68_leaf_moments_4 (xs : List (V3 ℝ)) (s : V3 ℝ) (m : ℝ) :
    IsMoments4 (leafMoments4 xs s m) (xs.map fun x => (m, x)) s := by
  have key : ∀ (ys : List (V3 ℝ)) (Q : Coll04) (src : Sources), IsMoments4 Q src s →
      IsMoments4 (ys.foldl (fun Q x => Q.addAssign (Coll04.from_vec (x - s))) Q) (src ++ ys.map fun x => (1, x)) s := by
    intro ys
    induction ys with
    | nil => intro Q src h; simpa using h
    | cons y ys ih =>
      intro Q src h
      have := ih _ _ (moments4_add h (moments4_single y s))
      simpa using this
  have h := moments4_scale (key xs _ _ (moments4_zeros s)) m
  simpa [leafMoments4, Function.comp_def] using h

/-- **C68 (moments add, order 4).** -/
theorem C68_moments_add_4 {A B : Coll04} {a b : Sources} {s : V3 ℝ} (hA : IsMoments4 A a s)
    (hB : IsMoments4 B b s) : IsMoments4 (A.addAssign B) (a ++ b) s := moments4_add hA hB

/-- **C68 (translation of moments, order 4).** `offset_multipole` maps the moments of any point masses
about one center to their moments about any other center. -/
theorem C68_multipole_shift_4 {Q : Coll04} {src : Sources} {s t : V3 ℝ} (h : IsMoments4 Q src s) :
    IsMoments4 (offset_multipole04 Q s t) src t := offset4_moments h

/-- **C68 (moments of a leaf, order 5).** Accumulating the tensor powers of `x - s` over the particles of
a leaf and multiplying by the particle mass gives the mass moments of those particles about `s`. -/
theorem C68_leaf_moments_5 (xs : List (V3 ℝ)) (s : V3 ℝ) (m : ℝ) :
    IsMoments5 (leafMoments5 xs s m) (xs.map fun x => (m, x)) s := by
  have key : ∀ (ys : List (V3 ℝ)) (Q : Coll05) (src : Sources), IsMoments5 Q src s →
      IsMoments5 (ys.foldl (fun Q x => Q.addAssign (Coll05.from_vec (x - s))) Q) (src ++ ys.map fun x => (1, x)) s := by
    intro ys
    induction ys with
    | nil => intro Q src h; simpa using h
    | cons y ys ih =>
      intro Q src h
      have := ih _ _ (moments5_add h (moments5_single y s))
      simpa using this
  have h := moments5_scale (key xs _ _ (moments5_zeros s)) m
  simpa [leafMoments5, Function.comp_def] using h

/-- **C68 (moments add, order 5).** -/
theorem C68_moments_add_5 {A B : Coll05} {a b : Sources} {s : V3 ℝ} (hA : IsMoments5 A a s)
    (hB : IsMoments5 B b s) : IsMoments5 (A.addAssign B) (a ++ b) s := moments5_add hA hB

/-- **C68 (translation of moments, order 5).** `offset_multipole` maps the moments of any point masses
about one center to their moments about any other center. -/
theorem C68_multipole_shift_5 {Q : Coll05} {src : Sources} {s t : V3 ℝ} (h : IsMoments5 Q src s) :
    IsMoments5 (offset_multipole05 Q s t) src t := offset5_moments h

example : IsMoments5 (offset_multipole05 (leafMoments5 [⟨1, 2, 3⟩, ⟨4, 5, 7⟩] ⟨0, 0, 1⟩ 2) ⟨0, 0, 1⟩ ⟨5, 5, 5⟩)
    [(2, ⟨1, 2, 3⟩), (2, ⟨4, 5, 7⟩)] ⟨5, 5, 5⟩ := C68_multipole_shift_5 (C68_leaf_moments_5 _ _ _)

example : mom [(2, ⟨1, 2, 3⟩), (2, ⟨4, 5, 7⟩)] ⟨5, 5, 5⟩ [0, 1] = 24 := by
  simp [mom, ix]; norm_num

/-! ### The Green function -/

theorem rsq_ne {r : V3 ℝ} (hr : r ≠ ⟨0, 0, 0⟩) : rsq r ≠ 0 := by
  intro h
  apply hr
  have hx := mul_self_nonneg r.x
  have hy := mul_self_nonneg r.y
  have hz := mul_self_nonneg r.z
  unfold rsq at h
  have h1 : r.x = 0 := mul_self_eq_zero.mp (by linarith)
  have h2 : r.y = 0 := mul_self_eq_zero.mp (by linarith)
  have h3 : r.z = 0 := mul_self_eq_zero.mp (by linarith)
  obtain ⟨x, y, z⟩ := r
  simp_all

theorem green_pot (r : V3 ℝ) : (green05 r).t0 = gravPot r := rfl

theorem green_field (r : V3 ℝ) (i : Fin 3) : (green05 r).t1.at i = gravField r i := by
  have e : (green05 r).t1.at i = g1 r * ix r i := by fin_cases i <;> rfl
  have hq := Real.sq_sqrt (rsq_nonneg r)
  rw [e]
  simp only [g1, g0, gravField, vnorm]
  show -1 * (1 / rsq r) * (1 / Real.sqrt (rsq r)) * ix r i = -ix r i / Real.sqrt (rsq r) ^ 3
  rw [pow_succ, hq]
  by_cases h : rsq r = 0
  · simp [h]
  · have : Real.sqrt (rsq r) ≠ 0 := by
      rw [Real.sqrt_ne_zero (rsq_nonneg _)]
      exact h
    field_simp

/-- **C68 (Green function, derivatives).** The tensor of order 0 is `1 / |r|`, the tensor of order 1 is its
gradient, and at every `r ≠ 0` every component of the tensor of order `n` has, along every direction `h`, the
derivative `Σ h_l D_{n+1 ... l}`: the tensors are the successive derivatives of `1 / |r|`. -/
theorem C68_green (r h : V3 ℝ) (hr : r ≠ ⟨0, 0, 0⟩) :
    (green05 r).t0 = gravPot r ∧
    (∀ i, (green05 r).t1.at i = gravField r i) ∧
    HasDerivAt (fun t => (green05 (along r h t)).t0) (∑ i, (green05 r).t1.at i * ix h i) 0 ∧
    (∀ i, HasDerivAt (fun t => (green05 (along r h t)).t1.at i) (∑ j, (green05 r).t2.at i j * ix h j) 0) ∧
    (∀ i j, HasDerivAt (fun t => (green05 (along r h t)).t2.at i j) (∑ k, (green05 r).t3.at i j k * ix h k) 0) ∧
    (∀ i j k, HasDerivAt (fun t => (green05 (along r h t)).t3.at i j k) (∑ l, (green05 r).t4.at i j k l * ix h l) 0) ∧
    (∀ i j k l, HasDerivAt (fun t => (green05 (along r h t)).t4.at i j k l) (∑ m, (green05 r).t5.at i j k l m * ix h m) 0) := by
  have h0 : rsq (along r h 0) ≠ 0 := by rw [along_zero]; exact rsq_ne hr
  refine ⟨green_pot r, green_field r, ?_, ?_, ?_, ?_, ?_⟩
  · simpa only [along_zero] using green_at0 r h 0 h0
  · intro i
    simpa only [along_zero] using green_at1 r h 0 h0 i
  · intro i j
    simpa only [along_zero] using green_at2 r h 0 h0 i j
  · intro i j k
    simpa only [along_zero] using green_at3 r h 0 h0 i j k
  · intro i j k l
    simpa only [along_zero] using green_at4 r h 0 h0 i j k l

theorem green04_eq (r : V3 ℝ) : green04 r = ⟨(green05 r).t0, (green05 r).t1, (green05 r).t2, (green05 r).t3, (green05 r).t4⟩ := rfl

theorem green03_eq (r : V3 ℝ) : green03 r = ⟨(green05 r).t0, (green05 r).t1, (green05 r).t2, (green05 r).t3⟩ := rfl

theorem green02_eq (r : V3 ℝ) : green02 r = ⟨(green05 r).t0, (green05 r).t1, (green05 r).t2⟩ := rfl

theorem green01_eq (r : V3 ℝ) : green01 r = ⟨(green05 r).t0, (green05 r).t1⟩ := rfl

theorem green00_eq (r : V3 ℝ) : green00 r = ⟨(green05 r).t0⟩ := rfl

theorem green15_eq (r : V3 ℝ) : green15 r = ⟨(green05 r).t1, (green05 r).t2, (green05 r).t3, (green05 r).t4, (green05 r).t5⟩ := rfl

theorem green14_eq (r : V3 ℝ) : green14 r = ⟨(green05 r).t1, (green05 r).t2, (green05 r).t3, (green05 r).t4⟩ := rfl

theorem green13_eq (r : V3 ℝ) : green13 r = ⟨(green05 r).t1, (green05 r).t2, (green05 r).t3⟩ := rfl

theorem green12_eq (r : V3 ℝ) : green12 r = ⟨(green05 r).t1, (green05 r).t2⟩ := rfl

theorem green11_eq (r : V3 ℝ) : green11 r = ⟨(green05 r).t1⟩ := rfl

/-- **C68 (Green function, every range of orders).** Each of the other ten variants returns the same tensors,
restricted to its orders. -/
theorem C68_green_variants (r : V3 ℝ) :
    green04 r = ⟨(green05 r).t0, (green05 r).t1, (green05 r).t2, (green05 r).t3, (green05 r).t4⟩ ∧
    green03 r = ⟨(green05 r).t0, (green05 r).t1, (green05 r).t2, (green05 r).t3⟩ ∧
    green02 r = ⟨(green05 r).t0, (green05 r).t1, (green05 r).t2⟩ ∧
    green01 r = ⟨(green05 r).t0, (green05 r).t1⟩ ∧
    green00 r = ⟨(green05 r).t0⟩ ∧
    green15 r = ⟨(green05 r).t1, (green05 r).t2, (green05 r).t3, (green05 r).t4, (green05 r).t5⟩ ∧
    green14 r = ⟨(green05 r).t1, (green05 r).t2, (green05 r).t3, (green05 r).t4⟩ ∧
    green13 r = ⟨(green05 r).t1, (green05 r).t2, (green05 r).t3⟩ ∧
    green12 r = ⟨(green05 r).t1, (green05 r).t2⟩ ∧
    green11 r = ⟨(green05 r).t1⟩ :=
  ⟨green04_eq r, green03_eq r, green02_eq r, green01_eq r, green00_eq r, green15_eq r, green14_eq r, green13_eq r, green12_eq r, green11_eq r⟩

/-- **C68 (Taylor polynomial of the field, order 1).** With the tensors of the Green function at `r ≠ 0`, the
polynomial `taylorField1` in `h` is the Taylor polynomial, with 1 terms, of the field along `r + t h`. -/
theorem C68_field_taylor_1 (r h : V3 ℝ) (hr : r ≠ ⟨0, 0, 0⟩) (i : Fin 3) :
    taylorField1 (green11 r) h i = taylorSum (fun t => gravField (along r h t) i) 1 := by
  have hq := rsq_ne hr
  have e : (fun t => gravField (along r h t) i) = fun t => (green05 (along r h t)).t1.at i :=
    funext fun t => (green_field _ i).symm
  rw [green11_eq, e]
  simp only [taylorSum, Finset.sum_range_succ, Finset.sum_range_zero, Nat.factorial, taylorField1]
  rw [field_iter r h i hq 0 (by norm_num)]
  simp only [fieldAlong, along_zero]
  norm_num

/-- **C68 (Taylor polynomial of the field, order 2).** With the tensors of the Green function at `r ≠ 0`, the
polynomial `taylorField2` in `h` is the Taylor polynomial, with 2 terms, of the field along `r + t h`. -/
theorem C68_field_taylor_2 (r h : V3 ℝ) (hr : r ≠ ⟨0, 0, 0⟩) (i : Fin 3) :
    taylorField2 (green12 r) h i = taylorSum (fun t => gravField (along r h t) i) 2 := by
  have hq := rsq_ne hr
  have e : (fun t => gravField (along r h t) i) = fun t => (green05 (along r h t)).t1.at i :=
    funext fun t => (green_field _ i).symm
  rw [green12_eq, e]
  simp only [taylorSum, Finset.sum_range_succ, Finset.sum_range_zero, Nat.factorial, taylorField2]
  rw [field_iter r h i hq 0 (by norm_num), field_iter r h i hq 1 (by norm_num)]
  simp only [fieldAlong, along_zero]
  norm_num

/-- **C68 (Taylor polynomial of the field, order 3).** With the tensors of the Green function at `r ≠ 0`, the
polynomial `taylorField3` in `h` is the Taylor polynomial, with 3 terms, of the field along `r + t h`. -/
theorem C68_field_taylor_3 (r h : V3 ℝ) (hr : r ≠ ⟨0, 0, 0⟩) (i : Fin 3) :
    taylorField3 (green13 r) h i = taylorSum (fun t => gravField (along r h t) i) 3 := by
  have hq := rsq_ne hr
  have e : (fun t => gravField (along r h t) i) = fun t => (green05 (along r h t)).t1.at i :=
    funext fun t => (green_field _ i).symm
  rw [green13_eq, e]
  simp only [taylorSum, Finset.sum_range_succ, Finset.sum_range_zero, Nat.factorial, taylorField3]
  rw [field_iter r h i hq 0 (by norm_num), field_iter r h i hq 1 (by norm_num), field_iter r h i hq 2 (by norm_num)]
  simp only [fieldAlong, along_zero]
  norm_num
  ring

/-- **C68 (Taylor polynomial of the field, order 4).** With the tensors of the Green function at `r ≠ 0`, the
polynomial `taylorField4` in `h` is the Taylor polynomial, with 4 terms, of the field along `r + t h`. -/
theorem C68_field_taylor_4 (r h : V3 ℝ) (hr : r ≠ ⟨0, 0, 0⟩) (i : Fin 3) :
    taylorField4 (green14 r) h i = taylorSum (fun t => gravField (along r h t) i) 4 := by
  have hq := rsq_ne hr
  have e : (fun t => gravField (along r h t) i) = fun t => (green05 (along r h t)).t1.at i :=
    funext fun t => (green_field _ i).symm
  rw [green14_eq, e]
  simp only [taylorSum, Finset.sum_range_succ, Finset.sum_range_zero, Nat.factorial, taylorField4]
  rw [field_iter r h i hq 0 (by norm_num), field_iter r h i hq 1 (by norm_num), field_iter r h i hq 2 (by norm_num), field_iter r h i hq 3 (by norm_num)]
  simp only [fieldAlong, along_zero]
  norm_num
  ring

/-- **C68 (Taylor polynomial of the field, order 5).** With the tensors of the Green function at `r ≠ 0`, the
polynomial `taylorField5` in `h` is the Taylor polynomial, with 5 terms, of the field along `r + t h`. -/
theorem C68_field_taylor_5 (r h : V3 ℝ) (hr : r ≠ ⟨0, 0, 0⟩) (i : Fin 3) :
    taylorField5 (green15 r) h i = taylorSum (fun t => gravField (along r h t) i) 5 := by
  have hq := rsq_ne hr
  have e : (fun t => gravField (along r h t) i) = fun t => (green05 (along r h t)).t1.at i :=
    funext fun t => (green_field _ i).symm
  rw [green15_eq, e]
  simp only [taylorSum, Finset.sum_range_succ, Finset.sum_range_zero, Nat.factorial, taylorField5]
  rw [field_iter r h i hq 0 (by norm_num), field_iter r h i hq 1 (by norm_num), field_iter r h i hq 2 (by norm_num), field_iter r h i hq 3 (by norm_num), field_iter r h i hq 4 (by norm_num)]
  simp only [fieldAlong, along_zero]
  norm_num
  ring

/-- **C68 (Taylor polynomial of the potential, order 0).** -/
theorem C68_pot_taylor_0 (r h : V3 ℝ) (hr : r ≠ ⟨0, 0, 0⟩) :
    taylorPot0 (green00 r) h = taylorSum (fun t => gravPot (along r h t)) 1 := by
  have hq := rsq_ne hr
  have e : (fun t => gravPot (along r h t)) = fun t => (green05 (along r h t)).t0 :=
    funext fun t => (green_pot _).symm
  rw [green00_eq, e]
  simp only [taylorSum, Finset.sum_range_succ, Finset.sum_range_zero, Nat.factorial, taylorPot0]
  rw [pot_iter r h hq 0 (by norm_num)]
  simp only [potAlong, along_zero]
  norm_num

/-- **C68 (Taylor polynomial of the potential, order 1).** -/
theorem C68_pot_taylor_1 (r h : V3 ℝ) (hr : r ≠ ⟨0, 0, 0⟩) :
    taylorPot1 (green01 r) h = taylorSum (fun t => gravPot (along r h t)) 2 := by
  have hq := rsq_ne hr
  have e : (fun t => gravPot (along r h t)) = fun t => (green05 (along r h t)).t0 :=
    funext fun t => (green_pot _).symm
  rw [green01_eq, e]
  simp only [taylorSum, Finset.sum_range_succ, Finset.sum_range_zero, Nat.factorial, taylorPot1]
  rw [pot_iter r h hq 0 (by norm_num), pot_iter r h hq 1 (by norm_num)]
  simp only [potAlong, along_zero]
  norm_num

/-- **C68 (Taylor polynomial of the potential, order 2).** -/
theorem C68_pot_taylor_2 (r h : V3 ℝ) (hr : r ≠ ⟨0, 0, 0⟩) :
    taylorPot2 (green02 r) h = taylorSum (fun t => gravPot (along r h t)) 3 := by
  have hq := rsq_ne hr
  have e : (fun t => gravPot (along r h t)) = fun t => (green05 (along r h t)).t0 :=
    funext fun t => (green_pot _).symm
  rw [green02_eq, e]
  simp only [taylorSum, Finset.sum_range_succ, Finset.sum_range_zero, Nat.factorial, taylorPot2]
  rw [pot_iter r h hq 0 (by norm_num), pot_iter r h hq 1 (by norm_num), pot_iter r h hq 2 (by norm_num)]
  simp only [potAlong, along_zero]
  norm_num
  ring

/-- **C68 (Taylor polynomial of the potential, order 3).** -/
theorem C68_pot_taylor_3 (r h : V3 ℝ) (hr : r ≠ ⟨0, 0, 0⟩) :
    taylorPot3 (green03 r) h = taylorSum (fun t => gravPot (along r h t)) 4 := by
  have hq := rsq_ne hr
  have e : (fun t => gravPot (along r h t)) = fun t => (green05 (along r h t)).t0 :=
    funext fun t => (green_pot _).symm
  rw [green03_eq, e]
  simp only [taylorSum, Finset.sum_range_succ, Finset.sum_range_zero, Nat.factorial, taylorPot3]
  rw [pot_iter r h hq 0 (by norm_num), pot_iter r h hq 1 (by norm_num), pot_iter r h hq 2 (by norm_num), pot_iter r h hq 3 (by norm_num)]
  simp only [potAlong, along_zero]
  norm_num
  ring

/-- **C68 (Taylor polynomial of the potential, order 4).** -/
theorem C68_pot_taylor_4 (r h : V3 ℝ) (hr : r ≠ ⟨0, 0, 0⟩) :
    taylorPot4 (green04 r) h = taylorSum (fun t => gravPot (along r h t)) 5 := by
  have hq := rsq_ne hr
  have e : (fun t => gravPot (along r h t)) = fun t => (green05 (along r h t)).t0 :=
    funext fun t => (green_pot _).symm
  rw [green04_eq, e]
  simp only [taylorSum, Finset.sum_range_succ, Finset.sum_range_zero, Nat.factorial, taylorPot4]
  rw [pot_iter r h hq 0 (by norm_num), pot_iter r h hq 1 (by norm_num), pot_iter r h hq 2 (by norm_num), pot_iter r h hq 3 (by norm_num), pot_iter r h hq 4 (by norm_num)]
  simp only [potAlong, along_zero]
  norm_num
  ring

/-- **C68 (Taylor polynomial of the potential, order 5).** -/
theorem C68_pot_taylor_5 (r h : V3 ℝ) (hr : r ≠ ⟨0, 0, 0⟩) :
    taylorPot5 (green05 r) h = taylorSum (fun t => gravPot (along r h t)) 6 := by
  have hq := rsq_ne hr
  have e : (fun t => gravPot (along r h t)) = fun t => (green05 (along r h t)).t0 :=
    funext fun t => (green_pot _).symm
  rw [e]
  simp only [taylorSum, Finset.sum_range_succ, Finset.sum_range_zero, Nat.factorial, taylorPot5]
  rw [pot_iter r h hq 0 (by norm_num), pot_iter r h hq 1 (by norm_num), pot_iter r h hq 2 (by norm_num), pot_iter r h hq 3 (by norm_num), pot_iter r h hq 4 (by norm_num), pot_iter r h hq 5 (by norm_num)]
  simp only [potAlong, along_zero]
  norm_num
  ring

example : (⟨1, 2, 3⟩ : V3 ℝ) ≠ ⟨0, 0, 0⟩ := by
  intro h
  simpa using congrArg V3.x h

/-! ### Evaluation -/

/-- **C68 (evaluation of a local expansion, order 1).** Contracting the local tensors with the powers of a
displacement evaluates the Taylor polynomial they define. -/
theorem C68_evaluate_1 (D : Coll11) (h : V3 ℝ) (i : Fin 3) :
    ix (contract_grav_moment_to_force1 (Coll00.from_vec h) D) i = taylorField1 D h i := eval1 D h i

/-- **C68 (translation of a local expansion, order 1).** `offset_dM_mat` re-centers the polynomial: at every
point the translated expansion has the same value. -/
theorem C68_local_shift_1 (dM : Coll11) (s t x : V3 ℝ) (i : Fin 3) :
    taylorField1 (offset_dM_mat11 dM s t) (x - t) i = taylorField1 dM (x - s) i := by
  rw [← eval1, ← eval1, localShift1]

/-- **C68 (force of a cell on a point, order 1).** For the moments of any point masses about `sB`, the local
expansion about `sA` that `get_dM_mat` builds from the Green function tensors at `sB - sA`, contracted with the
powers of `x - sA`, is the sum over the sources of the Taylor polynomial with 1 terms of the field at
`sB - sA`, in the displacement `(x_j - sB) - (x - sA)`. -/
theorem C68_cell_force_1 {Q : Coll00} {src : Sources} {sB : V3 ℝ} (hQ : IsMoments0 Q src sB) (sA x : V3 ℝ)
    (hr : sB - sA ≠ ⟨0, 0, 0⟩) (i : Fin 3) :
    ix (contract_grav_moment_to_force1 (Coll00.from_vec (x - sA)) (get_dM_mat0 (green11 (sB - sA)) Q)) i =
      (src.map fun q => q.1 *
        taylorSum (fun t => gravField (along (sB - sA) ((q.2 - sB) - (x - sA)) t) i) 1).sum := by
  rw [force1 hQ]
  congr 1
  apply List.map_congr_left
  intro q _
  rw [C68_field_taylor_1 _ _ hr]

/-- **C68 (force of a cell on a particle, order 1).** The variant without local expansion: the moments
contracted with the Green function tensors at `sB - x`. -/
theorem C68_particle_force_1 {Q : Coll00} {src : Sources} {sB : V3 ℝ} (hQ : IsMoments0 Q src sB) (x : V3 ℝ)
    (hr : sB - x ≠ ⟨0, 0, 0⟩) (i : Fin 3) :
    ix (contract_grav_moment_to_force1 Q (green11 (sB - x))) i =
      (src.map fun q => q.1 * taylorSum (fun t => gravField (along (sB - x) (q.2 - sB) t) i) 1).sum := by
  rw [direct1 hQ]
  congr 1
  apply List.map_congr_left
  intro q _
  rw [C68_field_taylor_1 _ _ hr]

/-- **C68 (evaluation of a local expansion, order 2).** Contracting the local tensors with the powers of a
displacement evaluates the Taylor polynomial they define. -/
theorem C68_evaluate_2 (D : Coll12) (h : V3 ℝ) (i : Fin 3) :
    ix (contract_grav_moment_to_force2 (Coll01.from_vec h) D) i = taylorField2 D h i := eval2 D h i

/-- **C68 (translation of a local expansion, order 2).** `offset_dM_mat` re-centers the polynomial: at every
point the translated expansion has the same value. -/
theorem C68_local_shift_2 (dM : Coll12) (s t x : V3 ℝ) (i : Fin 3) :
    taylorField2 (offset_dM_mat12 dM s t) (x - t) i = taylorField2 dM (x - s) i := by
  rw [← eval2, ← eval2, localShift2]

/-- **C68 (force of a cell on a point, order 2).** For the moments of any point masses about `sB`, the local
expansion about `sA` that `get_dM_mat` builds from the Green function tensors at `sB - sA`, contracted with the
powers of `x - sA`, is the sum over the sources of the Taylor polynomial with 2 terms of the field at
`sB - sA`, in the displacement `(x_j - sB) - (x - sA)`. -/
theorem C68_cell_force_2 {Q : Coll01} {src : Sources} {sB : V3 ℝ} (hQ : IsMoments1 Q src sB) (sA x : V3 ℝ)
    (hr : sB - sA ≠ ⟨0, 0, 0⟩) (i : Fin 3) :
    ix (contract_grav_moment_to_force2 (Coll01.from_vec (x - sA)) (get_dM_mat1 (green12 (sB - sA)) Q)) i =
      (src.map fun q => q.1 *
        taylorSum (fun t => gravField (along (sB - sA) ((q.2 - sB) - (x - sA)) t) i) 2).sum := by
  rw [force2 hQ]
  congr 1
  apply List.map_congr_left
  intro q _
  rw [C68_field_taylor_2 _ _ hr]

/-- **C68 (force of a cell on a particle, order 2).** The variant without local expansion: the moments
contracted with the Green function tensors at `sB - x`. -/
theorem C68_particle_force_2 {Q : Coll01} {src : Sources} {sB : V3 ℝ} (hQ : IsMoments1 Q src sB) (x : V3 ℝ)
    (hr : sB - x ≠ ⟨0, 0, 0⟩) (i : Fin 3) :
    ix (contract_grav_moment_to_force2 Q (green12 (sB - x))) i =
      (src.map fun q => q.1 * taylorSum (fun t => gravField (along (sB - x) (q.2 - sB) t) i) 2).sum := by
  rw [direct2 hQ]
  congr 1
  apply List.map_congr_left
  intro q _
  rw [C68_field_taylor_2 _ _ hr]

/-- **C68 (evaluation of a local expansion, order 3).** Contracting the local tensors with the powers of a
displacement evaluates the Taylor polynomial they define. -/
theorem C68_evaluate_3 (D : Coll13) (h : V3 ℝ) (i : Fin 3) :
    ix (contract_grav_moment_to_force3 (Coll02.from_vec h) D) i = taylorField3 D h i := eval3 D h i

/-- **C68 (translation of a local expansion, order 3).** `offset_dM_mat` re-centers the polynomial: at every
point the translated expansion has the same value. -/
theorem C68_local_shift_3 (dM : Coll13) (s t x : V3 ℝ) (i : Fin 3) :
    taylorField3 (offset_dM_mat13 dM s t) (x - t) i = taylorField3 dM (x - s) i := by
  rw [← eval3, ← eval3, localShift3]

/-- **C68 (force of a cell on a point, order 3).** For the moments of any point masses about `sB`, the local
expansion about `sA` that `get_dM_mat` builds from the Green function tensors at `sB - sA`, contracted with the
powers of `x - sA`, is the sum over the sources of the Taylor polynomial with 3 terms of the field at
`sB - sA`, in the displacement `(x_j - sB) - (x - sA)`. -/
theorem C68_cell_force_3 {Q : Coll02} {src : Sources} {sB : V3 ℝ} (hQ : IsMoments2 Q src sB) (sA x : V3 ℝ)
    (hr : sB - sA ≠ ⟨0, 0, 0⟩) (i : Fin 3) :
    ix (contract_grav_moment_to_force3 (Coll02.from_vec (x - sA)) (get_dM_mat2 (green13 (sB - sA)) Q)) i =
      (src.map fun q => q.1 *
        taylorSum (fun t => gravField (along (sB - sA) ((q.2 - sB) - (x - sA)) t) i) 3).sum := by
  rw [force3 hQ]
  congr 1
  apply List.map_congr_left
  intro q _
  rw [C68_field_taylor_3 _ _ hr]

/-- **C68 (force of a cell on a particle, order 3).** The variant without local expansion: the moments
contracted with the Green function tensors at `sB - x`. -/
theorem C68_particle_force_3 {Q : Coll02} {src : Sources} {sB : V3 ℝ} (hQ : IsMoments2 Q src sB) (x : V3 ℝ)
    (hr : sB - x ≠ ⟨0, 0, 0⟩) (i : Fin 3) :
    ix (contract_grav_moment_to_force3 Q (green13 (sB - x))) i =
      (src.map fun q => q.1 * taylorSum (fun t => gravField (along (sB - x) (q.2 - sB) t) i) 3).sum := by
  rw [direct3 hQ]
  congr 1
  apply List.map_congr_left
  intro q _
  rw [C68_field_taylor_3 _ _ hr]

/-- **C68 (evaluation of a local expansion, order 4).** Contracting the local tensors with the powers of a
displacement evaluates the Taylor polynomial they define. -/
theorem C68_evaluate_4 (D : Coll14) (h : V3 ℝ) (i : Fin 3) :
    ix (contract_grav_moment_to_force4 (Coll03.from_vec h) D) i = taylorField4 D h i := eval4 D h i

/-- **C68 (translation of a local expansion, order 4).** `offset_dM_mat` re-centers the polynomial: at every
point the translated expansion has the same value. -/
theorem C68_local_shift_4 (dM : Coll14) (s t x : V3 ℝ) (i : Fin 3) :
    taylorField4 (offset_dM_mat14 dM s t) (x - t) i = taylorField4 dM (x - s) i := by
  rw [← eval4, ← eval4, localShift4]

/-- **C68 (force of a cell on a point, order 4).** For the moments of any point masses about `sB`, the local
expansion about `sA` that `get_dM_mat` builds from the Green function tensors at `sB - sA`, contracted with the
powers of `x - sA`, is the sum over the sources of the Taylor polynomial with 4 terms of the field at
`sB - sA`, in the displacement `(x_j - sB) - (x - sA)`. -/
theorem C68_cell_force_4 {Q : Coll03} {src : Sources} {sB : V3 ℝ} (hQ : IsMoments3 Q src sB) (sA x : V3 ℝ)
    (hr : sB - sA ≠ ⟨0, 0, 0⟩) (i : Fin 3) :
    ix (contract_grav_moment_to_force4 (Coll03.from_vec (x - sA)) (get_dM_mat3 (green14 (sB - sA)) Q)) i =
      (src.map fun q => q.1 *
        taylorSum (fun t => gravField (along (sB - sA) ((q.2 - sB) - (x - sA)) t) i) 4).sum := by
  rw [force4 hQ]
  congr 1
  apply List.map_congr_left
  intro q _
  rw [C68_field_taylor_4 _ _ hr]

/-- **C68 (force of a cell on a particle, order 4).** The variant without local expansion: the moments
contracted with the Green function tensors at `sB - x`. -/
theorem C68_particle_force_4 {Q : Coll03} {src : Sources} {sB : V3 ℝ} (hQ : IsMoments3 Q src sB) (x : V3 ℝ)
    (hr : sB - x ≠ ⟨0, 0, 0⟩) (i : Fin 3) :
    ix (contract_grav_moment_to_force4 Q (green14 (sB - x))) i =
      (src.map fun q => q.1 * taylorSum (fun t => gravField (along (sB - x) (q.2 - sB) t) i) 4).sum := by
  rw [direct4 hQ]
  congr 1
  apply List.map_congr_left
  intro q _
  rw [C68_field_taylor_4 _ _ hr]

/-- **C68 (evaluation of a local expansion, order 5).** Contracting the local tensors with the powers of a
displacement evaluates the Taylor polynomial they define. -/
theorem C68_evaluate_5 (D : Coll15) (h : V3 ℝ) (i : Fin 3) :
    ix (contract_grav_moment_to_force5 (Coll04.from_vec h) D) i = taylorField5 D h i := eval5 D h i

/-- **C68 (translation of a local expansion, order 5).** `offset_dM_mat` re-centers the polynomial: at every
point the translated expansion has the same value. -/
theorem C68_local_shift_5 (dM : Coll15) (s t x : V3 ℝ) (i : Fin 3) :
    taylorField5 (offset_dM_mat15 dM s t) (x - t) i = taylorField5 dM (x - s) i := by
  rw [← eval5, ← eval5, localShift5]

/-- **C68 (force of a cell on a point, order 5).** For the moments of any point masses about `sB`, the local
expansion about `sA` that `get_dM_mat` builds from the Green function tensors at `sB - sA`, contracted with the
powers of `x - sA`, is the sum over the sources of the Taylor polynomial with 5 terms of the field at
`sB - sA`, in the displacement `(x_j - sB) - (x - sA)`. -/
theorem C68_cell_force_5 {Q : Coll04} {src : Sources} {sB : V3 ℝ} (hQ : IsMoments4 Q src sB) (sA x : V3 ℝ)
    (hr : sB - sA ≠ ⟨0, 0, 0⟩) (i : Fin 3) :
    ix (contract_grav_moment_to_force5 (Coll04.from_vec (x - sA)) (get_dM_mat4 (green15 (sB - sA)) Q)) i =
      (src.map fun q => q.1 *
        taylorSum (fun t => gravField (along (sB - sA) ((q.2 - sB) - (x - sA)) t) i) 5).sum := by
  rw [force5 hQ]
  congr 1
  apply List.map_congr_left
  intro q _
  rw [C68_field_taylor_5 _ _ hr]

/-- **C68 (force of a cell on a particle, order 5).** The variant without local expansion: the moments
contracted with the Green function tensors at `sB - x`. -/
theorem C68_particle_force_5 {Q : Coll04} {src : Sources} {sB : V3 ℝ} (hQ : IsMoments4 Q src sB) (x : V3 ℝ)
    (hr : sB - x ≠ ⟨0, 0, 0⟩) (i : Fin 3) :
    ix (contract_grav_moment_to_force5 Q (green15 (sB - x))) i =
      (src.map fun q => q.1 * taylorSum (fun t => gravField (along (sB - x) (q.2 - sB) t) i) 5).sum := by
  rw [direct5 hQ]
  congr 1
  apply List.map_congr_left
  intro q _
  rw [C68_field_taylor_5 _ _ hr]

/-- **C68 (potential of a cell, order 0).** The local expansion of `get_M_mat` is the sum over the sources of
the Taylor polynomial of the potential. -/
theorem C68_cell_pot_0 {Q : Coll00} {src : Sources} {sB : V3 ℝ} (hQ : IsMoments0 Q src sB) (sA x : V3 ℝ)
    (hr : sB - sA ≠ ⟨0, 0, 0⟩) :
    taylorPot0 (get_M_mat00 (green00 (sB - sA)) Q) (x - sA) =
      (src.map fun q => q.1 *
        taylorSum (fun t => gravPot (along (sB - sA) ((q.2 - sB) - (x - sA)) t)) 1).sum := by
  rw [pot0 hQ]
  congr 1
  apply List.map_congr_left
  intro q _
  rw [C68_pot_taylor_0 _ _ hr]

/-- **C68 (potential of a cell, order 1).** The local expansion of `get_M_mat` is the sum over the sources of
the Taylor polynomial of the potential. -/
theorem C68_cell_pot_1 {Q : Coll01} {src : Sources} {sB : V3 ℝ} (hQ : IsMoments1 Q src sB) (sA x : V3 ℝ)
    (hr : sB - sA ≠ ⟨0, 0, 0⟩) :
    taylorPot1 (get_M_mat01 (green01 (sB - sA)) Q) (x - sA) =
      (src.map fun q => q.1 *
        taylorSum (fun t => gravPot (along (sB - sA) ((q.2 - sB) - (x - sA)) t)) 2).sum := by
  rw [pot1 hQ]
  congr 1
  apply List.map_congr_left
  intro q _
  rw [C68_pot_taylor_1 _ _ hr]

/-- **C68 (potential of a cell, order 2).** The local expansion of `get_M_mat` is the sum over the sources of
the Taylor polynomial of the potential. -/
theorem C68_cell_pot_2 {Q : Coll02} {src : Sources} {sB : V3 ℝ} (hQ : IsMoments2 Q src sB) (sA x : V3 ℝ)
    (hr : sB - sA ≠ ⟨0, 0, 0⟩) :
    taylorPot2 (get_M_mat02 (green02 (sB - sA)) Q) (x - sA) =
      (src.map fun q => q.1 *
        taylorSum (fun t => gravPot (along (sB - sA) ((q.2 - sB) - (x - sA)) t)) 3).sum := by
  rw [pot2 hQ]
  congr 1
  apply List.map_congr_left
  intro q _
  rw [C68_pot_taylor_2 _ _ hr]

/-- **C68 (potential of a cell, order 3).** The local expansion of `get_M_mat` is the sum over the sources of
the Taylor polynomial of the potential. -/
theorem C68_cell_pot_3 {Q : Coll03} {src : Sources} {sB : V3 ℝ} (hQ : IsMoments3 Q src sB) (sA x : V3 ℝ)
    (hr : sB - sA ≠ ⟨0, 0, 0⟩) :
    taylorPot3 (get_M_mat03 (green03 (sB - sA)) Q) (x - sA) =
      (src.map fun q => q.1 *
        taylorSum (fun t => gravPot (along (sB - sA) ((q.2 - sB) - (x - sA)) t)) 4).sum := by
  rw [pot3 hQ]
  congr 1
  apply List.map_congr_left
  intro q _
  rw [C68_pot_taylor_3 _ _ hr]

/-- **C68 (potential of a cell, order 4).** The local expansion of `get_M_mat` is the sum over the sources of
the Taylor polynomial of the potential. -/
theorem C68_cell_pot_4 {Q : Coll04} {src : Sources} {sB : V3 ℝ} (hQ : IsMoments4 Q src sB) (sA x : V3 ℝ)
    (hr : sB - sA ≠ ⟨0, 0, 0⟩) :
    taylorPot4 (get_M_mat04 (green04 (sB - sA)) Q) (x - sA) =
      (src.map fun q => q.1 *
        taylorSum (fun t => gravPot (along (sB - sA) ((q.2 - sB) - (x - sA)) t)) 5).sum := by
  rw [pot4 hQ]
  congr 1
  apply List.map_congr_left
  intro q _
  rw [C68_pot_taylor_4 _ _ hr]

/-- **C68 (potential of a cell, order 5).** The local expansion of `get_M_mat` is the sum over the sources of
the Taylor polynomial of the potential. -/
theorem C68_cell_pot_5 {Q : Coll05} {src : Sources} {sB : V3 ℝ} (hQ : IsMoments5 Q src sB) (sA x : V3 ℝ)
    (hr : sB - sA ≠ ⟨0, 0, 0⟩) :
    taylorPot5 (get_M_mat05 (green05 (sB - sA)) Q) (x - sA) =
      (src.map fun q => q.1 *
        taylorSum (fun t => gravPot (along (sB - sA) ((q.2 - sB) - (x - sA)) t)) 6).sum := by
  rw [pot5 hQ]
  congr 1
  apply List.map_congr_left
  intro q _
  rw [C68_pot_taylor_5 _ _ hr]

/-- **C68 (translation of a local expansion of the potential).** -/
theorem C68_local_shift_pot (M : Coll05) (s t x : V3 ℝ) :
    taylorPot5 (offset_dM_mat05 M s t) (x - t) = taylorPot5 M (x - s) := potShift5 M s t x

example : IsMoments4 (leafMoments4 [⟨1, 2, 3⟩] ⟨0, 0, 1⟩ 2) [(2, ⟨1, 2, 3⟩)] ⟨0, 0, 1⟩ ∧
    (⟨0, 0, 1⟩ : V3 ℝ) - ⟨7, 0, 0⟩ ≠ ⟨0, 0, 0⟩ := by
  refine ⟨C68_leaf_moments_4 _ _ _, fun h => ?_⟩
  have := congrArg V3.x h
  rw [vsub] at this
  norm_num at this

end

end Shamrock.Fmm
