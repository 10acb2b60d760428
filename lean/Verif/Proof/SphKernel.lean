import Verif.Proof.PwPoly
import Verif.Model.SphKernel
import Mathlib.MeasureTheory.Constructions.HaarToSphere
import Mathlib.MeasureTheory.Measure.Lebesgue.VolumeOfBalls
import Mathlib.MeasureTheory.Measure.Lebesgue.Integral
import Mathlib.Analysis.Calculus.Deriv.MeanValue
import Mathlib.Analysis.Calculus.Deriv.Inv

/-!
# Kernels given by tables
-/

namespace Shamrock.Kern

open MeasureTheory

/-- Tables of a kernel: the shape `f`, and `q` times the potential divided by `π`. -/
structure Tab where
  R : ℚ
  n1 : ℚ
  n2 : ℚ
  n3 : ℚ
  t : List (ℚ × List ℚ)
  ph : List (ℚ × List ℚ)
  c : ℚ

/-- Numerator of the derivative of `P / q` over `q ^ 2`. -/
def qp (p : List ℚ) : List ℚ := padd (pX (pD p)) (psc (-1) p)

theorem ev_qp (p : List ℚ) (x : ℝ) : ev (qp p) x = x * ev (pD p) x - ev p x := by
  simp only [qp, ev_padd, ev_pX, ev_psc]; push_cast; ring

def x1PW (t : List (ℚ × List ℚ)) := mapPW pX t
def x2PW (t : List (ℚ × List ℚ)) := mapPW (fun p => pX (pX p)) t

def firstPos (t : List (ℚ × List ℚ)) : Bool := firstLt 0 t && !t.isEmpty

def endsLe (t : List (ℚ × List ℚ)) (R : ℚ) : Bool := t.all fun ap => ap.1 ≤ R

/-- The antiderivative check. -/
def intOk (t : List (ℚ × List ℚ)) (R v : ℚ) : Bool :=
  contPW t [] && contPW (antiPW 0 0 t) [v] && eqPW (dPW (antiPW 0 0 t)) t &&
    (evQ (firstP (antiPW 0 0 t) [v]) 0 == 0) && firstPos (antiPW 0 0 t) && endsLe (antiPW 0 0 t) R

/-- Checks common to all kernels. -/
structure Tab.Ok (T : Tab) : Prop where
  cont : contPW T.t [] = true
  cont' : contPW (dPW T.t) [] = true
  ends : endsLe T.t T.R = true
  Rpos : 0 < T.R
  first : firstPos T.t = true
  last : (T.t.getLast?.all fun ap => ap.1 == T.R) = true
  pos : posPW 0 T.t = true
  nonneg : nonnegPW 0 T.t = true
  n3pos : 0 < T.n3
  n2pos : 0 < T.n2
  n1pos : 0 < T.n1
  int1 : intOk T.t T.R (1 / (2 * T.n1)) = true
  int2 : intOk (x1PW T.t) T.R (1 / (2 * T.n2)) = true
  phCont : contPW T.ph [-T.c] = true
  phCont' : contPW (dPW T.ph) [0] = true
  phEnds : endsLe T.ph T.R = true
  phFirst : firstPos T.ph = true
  gCont : contPW (mapPW qp T.ph) [T.c] = true
  gCont' : contPW (mapPW (psc 4) (x2PW T.t)) [] = true
  gEq : eqPW (dPW (mapPW qp T.ph)) (mapPW (psc 4) (x2PW T.t)) = true
  gZero : firstPos (mapPW qp T.ph) = true
  gZero' : evQ (firstP (mapPW qp T.ph) [T.c]) 0 = 0
  unit : T.n3 * T.c = 1

/-- Second derivatives match too. -/
def Tab.ok2 (T : Tab) : Bool := contPW (dPW (dPW T.t)) []

/-- The shape does not increase. -/
def Tab.dec (T : Tab) : Bool := nonnegPW 0 (mapPW (psc (-1)) (dPW T.t))

/-- The shape decreases strictly inside the support. -/
def Tab.decS (T : Tab) : Bool :=
  posPW 0 (mapPW (psc (-1)) (dPW T.t)) &&
    ((mapPW (psc (-1)) (dPW T.t)).getLast?.all fun ap => ap.1 == T.R) &&
    !(mapPW (psc (-1)) (dPW T.t)).isEmpty

/-- The C++ functions are those of the table. -/
structure Repr (K : KernelDef) (T : Tab) : Prop where
  hR : K.Rkern = T.R
  h1 : K.norm_1d = T.n1
  h2 : K.norm_2d = T.n2 / Real.pi
  h3 : K.norm_3d = T.n3 / Real.pi
  hf : ∀ q, K.f q = evPW T.t [] q
  hdf : ∀ q, K.df q = evPW (dPW T.t) [] q
  hddf : ∀ q, K.ddf q = evPW (dPW (dPW T.t)) [] q
  hphi : ∀ q, 0 < q → K.phi_tilde_3d q = Real.pi * evPW T.ph [-T.c] q / q
  hphi' : ∀ q, 0 < q → K.phi_tilde_3d_prime q = Real.pi * evPW (mapPW qp T.ph) [T.c] q / q ^ 2
  hphi0 : K.phi_tilde_3d_prime 0 = 0

theorem last_zero {t : List (ℚ × List ℚ)} {R : ℚ} (l : List ℚ) (h : endsLe t R = true) {x : ℝ}
    (hx : (R : ℝ) ≤ x) : evPW t l x = ev l x := by
  refine evPW_mono_last fun ap hap => ?_
  simp only [endsLe, List.all_eq_true, decide_eq_true_eq] at h
  have : (ap.1 : ℝ) ≤ R := by exact_mod_cast h ap hap
  linarith

theorem endsLe_map (g : List ℚ → List ℚ) (t : List (ℚ × List ℚ)) (R : ℚ) :
    endsLe (mapPW g t) R = endsLe t R := by simp [endsLe, mapPW, List.all_map]; rfl

theorem dPW_map (t : List (ℚ × List ℚ)) : dPW t = mapPW pD t := rfl

theorem first_zero {t : List (ℚ × List ℚ)} {l : List ℚ} (h : firstPos t = true) :
    evPW t l 0 = ((evQ (firstP t l) 0 : ℚ) : ℝ) := by
  simp only [firstPos, Bool.and_eq_true] at h
  have := evPW_first (l := l) h.1
  rw [ev_cast] at this
  rw [← this]; simp

/-- Integral up to the support radius from the check. -/
theorem intOk_ok {t : List (ℚ × List ℚ)} {R v : ℚ} (h : intOk t R v = true) :
    ∫ x in (0 : ℝ)..R, evPW t [] x = v := by
  simp only [intOk, Bool.and_eq_true, beq_iff_eq] at h
  obtain ⟨⟨⟨⟨⟨h1, h2⟩, h3⟩, h4⟩, h5⟩, h6⟩ := h
  rw [integral_evPW t (antiPW 0 0 t) [] [v] h1 h2 h3 (by simp [peq, pD, padd, pX, psc]), first_zero h5, h4,
    last_zero [v] h6 le_rfl]
  simp [ev]

variable {K : KernelDef} {T : Tab}

theorem Repr.f_zero (r : Repr K T) (h : T.Ok) {q : ℝ} (hq : K.Rkern ≤ q) : K.f q = 0 := by
  rw [r.hf, last_zero [] h.ends (by rw [← r.hR]; exact hq)]; rfl

theorem Repr.df_zero (r : Repr K T) (h : T.Ok) {q : ℝ} (hq : K.Rkern ≤ q) : K.df q = 0 := by
  rw [r.hdf, dPW_map, last_zero [] (by rw [endsLe_map]; exact h.ends) (by rw [← r.hR]; exact hq)]; rfl

theorem Repr.ddf_zero (r : Repr K T) (h : T.Ok) {q : ℝ} (hq : K.Rkern ≤ q) : K.ddf q = 0 := by
  rw [r.hddf, dPW_map, dPW_map,
    last_zero [] (by rw [endsLe_map, endsLe_map]; exact h.ends) (by rw [← r.hR]; exact hq)]; rfl

theorem Repr.f_nonneg (r : Repr K T) (h : T.Ok) {q : ℝ} (hq : 0 ≤ q) : 0 ≤ K.f q := by
  rw [r.hf]; exact nonnegPW_ok T.t 0 h.nonneg q (by simpa using hq)

theorem Repr.f_pos (r : Repr K T) (h : T.Ok) {q : ℝ} (hq : 0 < q) (hR : q < K.Rkern) :
    0 < K.f q := by
  rw [r.hf]
  refine posPW_ok T.t 0 T.R h.pos ?_ q (Or.inl (by simpa using hq)) (by rw [← r.hR]; exact hR) ?_
  · intro ap hap
    have := h.last
    rw [Option.mem_def] at hap
    rw [hap] at this
    simpa using this
  · intro e
    have := h.first
    rw [e] at this
    simp [firstPos] at this

theorem Repr.deriv_f (r : Repr K T) (h : T.Ok) (q : ℝ) : HasDerivAt K.f (K.df q) q := by
  have e : K.f = evPW T.t [] := funext r.hf
  rw [e, r.hdf]
  exact hasDerivAt_evPW T.t [] h.cont h.cont' q

theorem Repr.deriv_df (r : Repr K T) (h : T.Ok) (h2 : T.ok2 = true) (q : ℝ) :
    HasDerivAt K.df (K.ddf q) q := by
  have e : K.df = evPW (dPW T.t) [] := funext r.hdf
  rw [e, r.hddf]
  exact hasDerivAt_evPW (dPW T.t) [] h.cont' h2 q

theorem Repr.deriv_df_off (r : Repr K T) (q : ℝ) (hq : ∀ ap ∈ T.t, q ≠ (ap.1 : ℝ)) :
    HasDerivAt K.df (K.ddf q) q := by
  have e : K.df = evPW (dPW T.t) [] := funext r.hdf
  rw [e, r.hddf]
  refine hasDerivAt_evPW_off (dPW T.t) [] q ?_
  intro ap hap
  simp only [dPW, List.mem_map] at hap
  obtain ⟨b, hb, e⟩ := hap
  subst e
  exact hq b hb

theorem Repr.df_nonpos (r : Repr K T) (h : T.dec = true) {q : ℝ} (hq : 0 ≤ q) : K.df q ≤ 0 := by
  have := nonnegPW_ok _ 0 h q (by simpa using hq)
  have e := evPW_map (psc (-1)) (fun _ y => -y) (fun p x => by rw [ev_psc]; push_cast; ring)
    (dPW T.t) [] [] q (by simp [ev])
  rw [e, ← r.hdf] at this
  linarith

theorem Repr.df_neg (r : Repr K T) (h : T.decS = true) {q : ℝ} (hq : 0 < q) (hR : q < K.Rkern) :
    K.df q < 0 := by
  simp only [Tab.decS, Bool.and_eq_true] at h
  have := posPW_ok _ 0 T.R h.1.1 (by
      intro ap hap
      have h2 := h.1.2
      rw [Option.mem_def] at hap
      rw [hap] at h2
      simpa using h2) q (Or.inl (by simpa using hq)) (by rw [← r.hR]; exact hR)
    (by intro e; rw [e] at h; simp at h)
  have e := evPW_map (psc (-1)) (fun _ y => -y) (fun p x => by rw [ev_psc]; push_cast; ring)
    (dPW T.t) [] [] q (by simp [ev])
  rw [e, ← r.hdf] at this
  linarith

theorem Repr.cont_f (r : Repr K T) (h : T.Ok) : Continuous K.f :=
  continuous_iff_continuousAt.2 fun q => (r.deriv_f h q).continuousAt

theorem Repr.Rpos (r : Repr K T) (h : T.Ok) : 0 < K.Rkern := by
  rw [r.hR]; exact_mod_cast h.Rpos

/-- Integral of a continuous function that vanishes beyond `R`. -/
theorem integral_Ioi_support {g : ℝ → ℝ} {R : ℝ} (hR : 0 ≤ R)
    (h0 : ∀ x, R ≤ x → g x = 0) : ∫ x in Set.Ioi (0 : ℝ), g x = ∫ x in (0 : ℝ)..R, g x := by
  rw [intervalIntegral.integral_of_le hR]
  refine setIntegral_eq_of_subset_of_forall_diff_eq_zero measurableSet_Ioi
    Set.Ioc_subset_Ioi_self ?_
  intro x hx
  refine h0 x ?_
  by_contra hlt
  exact hx.2 ⟨hx.1, (not_le.1 hlt).le⟩

theorem Repr.mass1 (r : Repr K T) (h : T.Ok) :
    K.norm_1d * (2 * ∫ q in Set.Ioi (0 : ℝ), K.f q) = 1 := by
  rw [integral_Ioi_support (r.Rpos h).le fun x hx => r.f_zero h hx]
  have e : K.f = evPW T.t [] := funext r.hf
  rw [e, r.hR, intOk_ok h.int1, r.h1]
  have : (T.n1 : ℝ) ≠ 0 := by exact_mod_cast h.n1pos.ne'
  push_cast; field_simp

theorem Repr.mass2 (r : Repr K T) (h : T.Ok) :
    K.norm_2d * (2 * Real.pi * ∫ q in Set.Ioi (0 : ℝ), q * K.f q) = 1 := by
  rw [integral_Ioi_support (r.Rpos h).le fun x hx => by rw [r.f_zero h hx, mul_zero]]
  have e : (fun q => q * K.f q) = evPW (x1PW T.t) [] := by
    funext q
    rw [r.hf]
    exact (evPW_map pX (fun x y => x * y) ev_pX T.t [] [] q (by simp [ev])).symm
  rw [e, r.hR, intOk_ok h.int2, r.h2]
  have : (T.n2 : ℝ) ≠ 0 := by exact_mod_cast h.n2pos.ne'
  have := Real.pi_ne_zero
  push_cast; field_simp

/-- `4 q² f`, as a table. -/
theorem Repr.shell (r : Repr K T) (q : ℝ) :
    4 * q ^ 2 * K.f q = evPW (mapPW (psc 4) (x2PW T.t)) [] q := by
  rw [r.hf, evPW_map (psc 4) (fun _ y => 4 * y) (fun p x => by rw [ev_psc]; norm_num)
    (x2PW T.t) [] [] q (by simp [ev]), x2PW,
    evPW_map (fun p => pX (pX p)) (fun x y => x ^ 2 * y) (fun p x => by rw [ev_pX, ev_pX]; ring)
    T.t [] [] q (by simp [ev])]
  ring

/-- The mass table: `∫_0^q 4 s² f(s) ds`. -/
noncomputable def mass (T : Tab) (q : ℝ) : ℝ := evPW (mapPW qp T.ph) [T.c] q

theorem Repr.mass_deriv (r : Repr K T) (h : T.Ok) (q : ℝ) :
    HasDerivAt (mass T) (4 * q ^ 2 * K.f q) q := by
  have hl : peq (pD [T.c]) [] = true := by simp [peq, pD, padd, pX, psc]
  rw [r.shell, ← eqPW_ok _ _ _ _ h.gEq hl]
  refine hasDerivAt_evPW _ _ h.gCont ?_ q
  exact contPW_of_eq _ _ _ _ h.gCont h.gCont' h.gEq hl

theorem mass_zero (h : T.Ok) : mass T 0 = 0 := by
  rw [mass, first_zero h.gZero, h.gZero']; simp

theorem mass_out (h : T.Ok) {q : ℝ} (hq : (T.R : ℝ) ≤ q) : mass T q = T.c := by
  rw [mass, last_zero _ (by rw [endsLe_map]; exact h.phEnds) hq]; simp [ev]

theorem Repr.mass3 (r : Repr K T) (h : T.Ok) :
    K.norm_3d * (4 * Real.pi * ∫ q in Set.Ioi (0 : ℝ), q ^ 2 * K.f q) = 1 := by
  have e : ∀ q, q ^ 2 * K.f q = (4 * q ^ 2 * K.f q) / 4 := fun q => by ring
  rw [integral_Ioi_support (r.Rpos h).le fun x hx => by rw [r.f_zero h hx, mul_zero]]
  simp only [e]
  rw [intervalIntegral.integral_div, intervalIntegral.integral_eq_sub_of_hasDerivAt
    (fun q _ => r.mass_deriv h q), mass_zero h, mass_out h (by rw [r.hR]), r.h3]
  · have h1 : (T.n3 : ℝ) * T.c = 1 := by exact_mod_cast h.unit
    have := Real.pi_ne_zero
    field_simp
    linarith
  · exact ((continuous_const.mul (continuous_id.pow 2)).mul (r.cont_f h)).intervalIntegrable _ _

theorem ball3 : (volume : Measure (EuclideanSpace ℝ (Fin 3))).real (Metric.ball 0 1)
    = 4 * Real.pi / 3 := by
  rw [Measure.real, EuclideanSpace.volume_ball_fin_three]
  have := Real.pi_pos
  rw [ENNReal.toReal_mul, ENNReal.toReal_ofReal (by positivity)]
  simp; ring

theorem ball2 : (volume : Measure (EuclideanSpace ℝ (Fin 2))).real (Metric.ball 0 1)
    = Real.pi := by
  rw [Measure.real, EuclideanSpace.volume_ball_fin_two]
  have := Real.pi_pos
  rw [ENNReal.toReal_mul, ENNReal.toReal_ofReal (by positivity)]
  simp

theorem radial3 (g : ℝ → ℝ) : ∫ x : EuclideanSpace ℝ (Fin 3), g ‖x‖
    = 4 * Real.pi * ∫ y in Set.Ioi (0 : ℝ), y ^ 2 * g y := by
  rw [integral_fun_norm_addHaar, ball3]
  simp [finrank_euclideanSpace]
  ring

theorem radial2 (g : ℝ → ℝ) : ∫ x : EuclideanSpace ℝ (Fin 2), g ‖x‖
    = 2 * Real.pi * ∫ y in Set.Ioi (0 : ℝ), y * g y := by
  rw [integral_fun_norm_addHaar, ball2]
  simp [finrank_euclideanSpace]
  ring

/-- Change of scale on the half line. -/
theorem scale_Ioi (g : ℝ → ℝ) {h : ℝ} (hh : 0 < h) :
    ∫ y in Set.Ioi (0 : ℝ), g (y / h) = h * ∫ q in Set.Ioi (0 : ℝ), g q := by
  have := integral_comp_mul_left_Ioi g 0 (inv_pos.2 hh)
  simp only [inv_inv, mul_zero, smul_eq_mul] at this
  rw [← this]
  congr 1
  funext y
  rw [div_eq_inv_mul]

theorem Repr.norm3 (r : Repr K T) (ok : T.Ok) {h : ℝ} (hh : 0 < h) :
    ∫ x : EuclideanSpace ℝ (Fin 3), W_3d K ‖x‖ h = 1 := by
  rw [radial3 fun y => W_3d K y h]
  have e : ∀ y, y ^ 2 * W_3d K y h = (fun q => K.norm_3d / h * (q ^ 2 * K.f q)) (y / h) := by
    intro y; simp only [W_3d]; field_simp
  simp only [e]
  rw [scale_Ioi (fun q => K.norm_3d / h * (q ^ 2 * K.f q)) hh, integral_const_mul]
  have := r.mass3 ok
  field_simp
  linarith

theorem Repr.norm2 (r : Repr K T) (ok : T.Ok) {h : ℝ} (hh : 0 < h) :
    ∫ x : EuclideanSpace ℝ (Fin 2), W_2d K ‖x‖ h = 1 := by
  rw [radial2 fun y => W_2d K y h]
  have e : ∀ y, y * W_2d K y h = (fun q => K.norm_2d / h * (q * K.f q)) (y / h) := by
    intro y; simp only [W_2d]; field_simp
  simp only [e]
  rw [scale_Ioi (fun q => K.norm_2d / h * (q * K.f q)) hh, integral_const_mul]
  have := r.mass2 ok
  field_simp
  linarith

theorem Repr.norm1 (r : Repr K T) (ok : T.Ok) {h : ℝ} (hh : 0 < h) :
    ∫ x : ℝ, W_1d K |x| h = 1 := by
  rw [integral_comp_abs (f := fun y => W_1d K y h)]
  have e : ∀ y, W_1d K y h = (fun q => K.norm_1d / h * K.f q) (y / h) := by
    intro y; simp only [W_1d]; field_simp
  simp only [e]
  rw [scale_Ioi (fun q => K.norm_1d / h * K.f q) hh, integral_const_mul]
  have := r.mass1 ok
  field_simp
  linarith

theorem hasDerivAt_div_const' (r h : ℝ) : HasDerivAt (fun r => r / h) (1 / h) r := by
  simpa using (hasDerivAt_id r).div_const h

theorem Repr.grad (r : Repr K T) (ok : T.Ok) (x : ℝ) {h : ℝ} (hh : 0 < h) :
    HasDerivAt (fun x => W_3d K x h) (dW_3d K x h) x := by
  have := (((r.deriv_f ok (x / h)).comp x (hasDerivAt_div_const' x h)).const_mul K.norm_3d).div_const
    (h * h * h)
  refine this.congr_deriv ?_
  simp only [dW_3d]
  field_simp

theorem grad2 {x h : ℝ} (hd : HasDerivAt K.df (K.ddf (x / h)) (x / h)) (hh : 0 < h) :
    HasDerivAt (fun x => dW_3d K x h) (ddW_3d K x h) x := by
  have := ((hd.comp x (hasDerivAt_div_const' x h)).const_mul K.norm_3d).div_const (h * h * h * h)
  refine this.congr_deriv ?_
  simp only [ddW_3d]
  field_simp

theorem Repr.dh (r : Repr K T) (ok : T.Ok) (x : ℝ) {h : ℝ} (hh : 0 < h) :
    HasDerivAt (fun h => W_3d K x h) (dhW_3d K x h) h := by
  have h0 := hh.ne'
  have e1 : HasDerivAt (fun h => x / h) (-x / h ^ 2) h := by
    have := (hasDerivAt_inv h0).const_mul x
    refine (this.congr_deriv ?_)
    field_simp
  have e2 : HasDerivAt (fun h : ℝ => h * h * h) (3 * h ^ 2) h := by
    have := hasDerivAt_pow 3 h
    have e : (fun h : ℝ => h * h * h) = fun h => h ^ 3 := by funext y; ring
    rw [e]
    refine this.congr_deriv ?_
    norm_num
  have := (((r.deriv_f ok (x / h)).comp h e1).const_mul K.norm_3d).div e2 (by positivity)
  refine this.congr_deriv ?_
  simp only [dhW_3d, Function.comp]
  field_simp
  ring

/-! ### The softened potential -/

theorem Repr.phi_out (r : Repr K T) (ok : T.Ok) {x h : ℝ} (hh : 0 < h) (hx : K.Rkern * h ≤ x) :
    phi_3D K x h = -1 / x := by
  have hR := r.Rpos ok
  have hx0 : 0 < x := lt_of_lt_of_le (by positivity) hx
  have hq : K.Rkern ≤ x / h := by rw [le_div_iff₀ hh]; exact hx
  rw [phi_3D, r.hphi _ (by positivity), last_zero _ ok.phEnds (by rw [← r.hR]; exact hq), r.h3]
  have h1 : (T.n3 : ℝ) * T.c = 1 := by exact_mod_cast ok.unit
  have := Real.pi_ne_zero
  simp only [ev]
  push_cast
  field_simp
  linear_combination (-h) * h1

theorem Repr.phi_prime (r : Repr K T) {x h : ℝ} (hh : 0 < h) (hx : 0 < x) :
    phi_3D_prime K x h = T.n3 * mass T (x / h) / x ^ 2 := by
  rw [phi_3D_prime, r.hphi' _ (by positivity), r.h3, ← mass]
  have := Real.pi_ne_zero
  field_simp

theorem Repr.phi_deriv (r : Repr K T) (ok : T.Ok) {x h : ℝ} (hh : 0 < h) (hx : 0 < x) :
    HasDerivAt (fun x => phi_3D K x h) (phi_3D_prime K x h) x := by
  have hq : 0 < x / h := by positivity
  have hP : HasDerivAt (evPW T.ph [-T.c]) (evPW (dPW T.ph) [0] (x / h)) (x / h) := by
    have := hasDerivAt_evPW T.ph [-T.c] ok.phCont ok.phCont' (x / h)
    simpa [pD, padd, pX] using this
  have h1 : HasDerivAt K.phi_tilde_3d (K.phi_tilde_3d_prime (x / h)) (x / h) := by
    have h2 := (hP.const_mul Real.pi).div (hasDerivAt_id (x / h)) hq.ne'
    have h3 : HasDerivAt K.phi_tilde_3d ((Real.pi * evPW (dPW T.ph) [0] (x / h) * id (x / h)
        - Real.pi * evPW T.ph [-T.c] (x / h) * 1) / id (x / h) ^ 2) (x / h) := by
      refine h2.congr_of_eventuallyEq ?_
      filter_upwards [eventually_gt_nhds hq] with y hy
      exact r.hphi y hy
    refine h3.congr_deriv ?_
    rw [r.hphi' _ hq]
    have e : evPW (mapPW qp T.ph) [T.c] (x / h)
        = x / h * evPW (dPW T.ph) [0] (x / h) - evPW T.ph [-T.c] (x / h) := by
      generalize x / h = q
      generalize T.ph = t
      induction t with
      | nil => simp [mapPW, dPW, evPW, ev]
      | cons ap t ih =>
        obtain ⟨a, p⟩ := ap
        show (if q < (a : ℝ) then ev (qp p) q else evPW (mapPW qp t) [T.c] q)
          = q * (if q < (a : ℝ) then ev (pD p) q else evPW (dPW t) [0] q)
            - (if q < (a : ℝ) then ev p q else evPW t [-T.c] q)
        rw [ih, ev_qp]
        split_ifs <;> rfl
    rw [e]
    simp only [id]
    ring
  have := ((h1.comp x (hasDerivAt_div_const' x h)).const_mul K.norm_3d).div_const h
  refine this.congr_deriv ?_
  simp only [phi_3D_prime]
  field_simp

/-- Gauss: the derivative of the potential is the mass inside over the squared distance. -/
theorem Repr.gauss (r : Repr K T) (ok : T.Ok) {x h : ℝ} (hh : 0 < h) (hx : 0 < x) :
    ∫ y in Metric.ball (0 : EuclideanSpace ℝ (Fin 3)) x, W_3d K ‖y‖ h
      = x ^ 2 * phi_3D_prime K x h := by
  have e : ∫ y in Metric.ball (0 : EuclideanSpace ℝ (Fin 3)) x, W_3d K ‖y‖ h
      = ∫ y : EuclideanSpace ℝ (Fin 3), (fun s => if s < x then W_3d K s h else 0) ‖y‖ := by
    rw [← integral_indicator Metric.isOpen_ball.measurableSet]
    congr 1
    funext y
    simp only [Set.indicator, Metric.mem_ball, dist_zero_right]
  rw [e, radial3 (fun s => if s < x then W_3d K s h else 0), integral_Ioi_support hx.le fun y hy => by simp [not_lt.2 hy]]
  have e2 : ∫ y in (0 : ℝ)..x, y ^ 2 * (fun s => if s < x then W_3d K s h else 0) y
      = ∫ y in (0 : ℝ)..x, y ^ 2 * W_3d K y h := by
    refine intervalIntegral.integral_congr_ae ?_
    have : ∀ᵐ y : ℝ, y ≠ x := by simp [ae_iff]
    filter_upwards [this] with y hy hy'
    rw [Set.uIoc_of_le hx.le] at hy'
    simp only [lt_of_le_of_ne hy'.2 hy, if_true]
  rw [e2]
  have hd : ∀ y, HasDerivAt (fun y => T.n3 / (4 * Real.pi) * mass T (y / h)) (y ^ 2 * W_3d K y h) y := by
    intro y
    have := ((r.mass_deriv ok (y / h)).comp y (hasDerivAt_div_const' y h)).const_mul
      (T.n3 / (4 * Real.pi) : ℝ)
    refine this.congr_deriv ?_
    simp only [W_3d, r.h3]
    have := Real.pi_ne_zero
    field_simp
  rw [intervalIntegral.integral_eq_sub_of_hasDerivAt (fun y _ => hd y)]
  · rw [zero_div, mass_zero ok, r.phi_prime hh hx]
    have := Real.pi_ne_zero
    field_simp
    ring
  · refine Continuous.intervalIntegrable ?_ _ _
    refine (continuous_id.pow 2).mul ?_
    exact continuous_iff_continuousAt.2 fun y => (r.grad ok y hh).continuousAt

end Shamrock.Kern
