import Verif.Proof.SphKernelTabA
import Verif.Proof.SphKernelTabB
import Verif.Proof.SphKernelTabC
import Verif.Proof.SphKernelTabD

/-!
# C64: the SPH kernels are what their documentation says

Over the reals, for every polynomial kernel of `sphkernels.hpp` and every smoothing length `h > 0`:
unit integral in one, two and three dimensions, compact support, positivity, monotonicity, the
gradient, second derivative and `∂W/∂h` are the true derivatives of `W`, and the softened potential
is the gravitational potential of the kernel.
-/

namespace Shamrock.Kern

open MeasureTheory

/-- The kernels that decrease from the centre. -/
noncomputable def bellKernels : List KernelDef :=
  [M4.kernel, M5.kernel, M6.kernel, M7.kernel, M8.kernel, M9.kernel, M10.kernel, C2.kernel,
    C4.kernel, C6.kernel]

/-- The kernels `M4` times a power of `q`. -/
noncomputable def humpKernels : List KernelDef :=
  [M4DoubleHump.kernel, M4DoubleHump3.kernel, M4DoubleHump5.kernel, M4DoubleHump7.kernel]

/-- The kernels with a plateau, each with the end of its plateau. -/
noncomputable def shiftKernels : List (KernelDef × ℝ) :=
  [(M4Shift2.kernel, 1), (M4Shift4.kernel, 3 / 2), (M4Shift8.kernel, 7 / 4),
    (M4Shift16.kernel, 15 / 8)]

/-- All eighteen. -/
noncomputable def kernels : List KernelDef :=
  bellKernels ++ humpKernels ++ shiftKernels.map Prod.fst

theorem kernels_repr : ∀ K ∈ kernels, ∃ T : Tab, Repr K T ∧ T.Ok := by
  intro K hK
  simp only [kernels, bellKernels, humpKernels, shiftKernels, List.map_cons, List.map_nil,
    List.cons_append, List.nil_append, List.mem_cons, List.not_mem_nil, or_false] at hK
  rcases hK with h | h | h | h | h | h | h | h | h | h | h | h | h | h | h | h | h | h <;> subst h
  exacts [⟨_, M4.repr, M4.tab_ok⟩, ⟨_, M5.repr, M5.tab_ok⟩, ⟨_, M6.repr, M6.tab_ok⟩,
    ⟨_, M7.repr, M7.tab_ok⟩, ⟨_, M8.repr, M8.tab_ok⟩, ⟨_, M9.repr, M9.tab_ok⟩,
    ⟨_, M10.repr, M10.tab_ok⟩, ⟨_, C2.repr, C2.tab_ok⟩, ⟨_, C4.repr, C4.tab_ok⟩,
    ⟨_, C6.repr, C6.tab_ok⟩, ⟨_, M4DoubleHump.repr, M4DoubleHump.tab_ok⟩,
    ⟨_, M4DoubleHump3.repr, M4DoubleHump3.tab_ok⟩, ⟨_, M4DoubleHump5.repr, M4DoubleHump5.tab_ok⟩,
    ⟨_, M4DoubleHump7.repr, M4DoubleHump7.tab_ok⟩, ⟨_, M4Shift2.repr, M4Shift2.tab_ok⟩,
    ⟨_, M4Shift4.repr, M4Shift4.tab_ok⟩, ⟨_, M4Shift8.repr, M4Shift8.tab_ok⟩,
    ⟨_, M4Shift16.repr, M4Shift16.tab_ok⟩]

/-- **C64 (unit mass).** The integral of the kernel over the line, the plane and space is exactly
one, whatever the smoothing length. -/
theorem C64_normalised (K : KernelDef) (hK : K ∈ kernels) (h : ℝ) (hh : 0 < h) :
    ∫ x : ℝ, W_1d K |x| h = 1 ∧
    ∫ x : EuclideanSpace ℝ (Fin 2), W_2d K ‖x‖ h = 1 ∧
    ∫ x : EuclideanSpace ℝ (Fin 3), W_3d K ‖x‖ h = 1 := by
  obtain ⟨T, r, ok⟩ := kernels_repr K hK
  exact ⟨r.norm1 ok hh, r.norm2 ok hh, r.norm3 ok hh⟩

/-- **C64 (compact support).** From the distance `Rkern * h` on, the kernel and all its derivatives
vanish: particles further apart do not interact. -/
theorem C64_support (K : KernelDef) (hK : K ∈ kernels) (h : ℝ) (hh : 0 < h) (r : ℝ)
    (hr : K.Rkern * h ≤ r) :
    W_1d K r h = 0 ∧ W_2d K r h = 0 ∧ W_3d K r h = 0 ∧ dW_3d K r h = 0 ∧ ddW_3d K r h = 0 ∧
      dhW_3d K r h = 0 := by
  obtain ⟨T, rp, ok⟩ := kernels_repr K hK
  have hq : K.Rkern ≤ r / h := by rw [le_div_iff₀ hh]; exact hr
  have h0 := rp.f_zero ok hq
  have h1 := rp.df_zero ok hq
  have h2 := rp.ddf_zero ok hq
  simp [W_1d, W_2d, W_3d, dW_3d, ddW_3d, dhW_3d, h0, h1, h2]

theorem norm_pos' {K : KernelDef} {T : Tab} (rp : Repr K T) (ok : T.Ok) :
    0 < K.norm_1d ∧ 0 < K.norm_2d ∧ 0 < K.norm_3d := by
  have h1 : (0 : ℝ) < T.n1 := by exact_mod_cast ok.n1pos
  have h2 : (0 : ℝ) < T.n2 := by exact_mod_cast ok.n2pos
  have h3 : (0 : ℝ) < T.n3 := by exact_mod_cast ok.n3pos
  have := Real.pi_pos
  rw [rp.h1, rp.h2, rp.h3]
  exact ⟨h1, by positivity, by positivity⟩

/-- **C64 (positive).** The kernel is never negative, and it is positive at every distance strictly
between zero and the support radius: no neighbour inside the support is lost. -/
theorem C64_positive (K : KernelDef) (hK : K ∈ kernels) (h : ℝ) (hh : 0 < h) (r : ℝ) (hr : 0 ≤ r) :
    (0 ≤ W_1d K r h ∧ 0 ≤ W_2d K r h ∧ 0 ≤ W_3d K r h) ∧
    (0 < r → r < K.Rkern * h → 0 < W_1d K r h ∧ 0 < W_2d K r h ∧ 0 < W_3d K r h) := by
  obtain ⟨T, rp, ok⟩ := kernels_repr K hK
  obtain ⟨n1, n2, n3⟩ := norm_pos' rp ok
  constructor
  · have := rp.f_nonneg ok (q := r / h) (by positivity)
    simp only [W_1d, W_2d, W_3d]
    exact ⟨by positivity, by positivity, by positivity⟩
  · intro h0 hR
    have := rp.f_pos ok (q := r / h) (by positivity) (by rw [div_lt_iff₀ hh]; exact hR)
    simp only [W_1d, W_2d, W_3d]
    exact ⟨by positivity, by positivity, by positivity⟩

theorem bell_repr : ∀ K ∈ bellKernels ++ shiftKernels.map Prod.fst,
    ∃ T : Tab, Repr K T ∧ T.Ok ∧ T.dec = true := by
  intro K hK
  simp only [bellKernels, shiftKernels, List.map_cons, List.map_nil,
    List.cons_append, List.nil_append, List.mem_cons, List.not_mem_nil, or_false] at hK
  rcases hK with h | h | h | h | h | h | h | h | h | h | h | h | h | h <;> subst h
  exacts [⟨_, M4.repr, M4.tab_ok, by decide +kernel⟩, ⟨_, M5.repr, M5.tab_ok, by decide +kernel⟩,
    ⟨_, M6.repr, M6.tab_ok, by decide +kernel⟩, ⟨_, M7.repr, M7.tab_ok, by decide +kernel⟩,
    ⟨_, M8.repr, M8.tab_ok, by decide +kernel⟩, ⟨_, M9.repr, M9.tab_ok, by decide +kernel⟩,
    ⟨_, M10.repr, M10.tab_ok, by decide +kernel⟩, ⟨_, C2.repr, C2.tab_ok, by decide +kernel⟩,
    ⟨_, C4.repr, C4.tab_ok, by decide +kernel⟩, ⟨_, C6.repr, C6.tab_ok, by decide +kernel⟩,
    ⟨_, M4Shift2.repr, M4Shift2.tab_ok, by decide +kernel⟩,
    ⟨_, M4Shift4.repr, M4Shift4.tab_ok, by decide +kernel⟩,
    ⟨_, M4Shift8.repr, M4Shift8.tab_ok, by decide +kernel⟩,
    ⟨_, M4Shift16.repr, M4Shift16.tab_ok, by decide +kernel⟩]

/-- **C64 (gradient).** The function `dW_3d` is the derivative of `W_3d` with respect to the distance
and `dhW_3d` its derivative with respect to the smoothing length, at every point, the ends of the
polynomial pieces included. -/
theorem C64_gradient (K : KernelDef) (hK : K ∈ kernels) (r h : ℝ) (hh : 0 < h) :
    HasDerivAt (fun r => W_3d K r h) (dW_3d K r h) r ∧
    HasDerivAt (fun h => W_3d K r h) (dhW_3d K r h) h := by
  obtain ⟨T, rp, ok⟩ := kernels_repr K hK
  exact ⟨rp.grad ok r hh, rp.dh ok r hh⟩

theorem bellS_repr : ∀ K ∈ bellKernels, ∃ T : Tab, Repr K T ∧ T.Ok ∧ T.decS = true := by
  intro K hK
  simp only [bellKernels, List.mem_cons, List.not_mem_nil, or_false] at hK
  rcases hK with h | h | h | h | h | h | h | h | h | h <;> subst h
  exacts [⟨_, M4.repr, M4.tab_ok, by decide +kernel⟩, ⟨_, M5.repr, M5.tab_ok, by decide +kernel⟩,
    ⟨_, M6.repr, M6.tab_ok, by decide +kernel⟩, ⟨_, M7.repr, M7.tab_ok, by decide +kernel⟩,
    ⟨_, M8.repr, M8.tab_ok, by decide +kernel⟩, ⟨_, M9.repr, M9.tab_ok, by decide +kernel⟩,
    ⟨_, M10.repr, M10.tab_ok, by decide +kernel⟩, ⟨_, C2.repr, C2.tab_ok, by decide +kernel⟩,
    ⟨_, C4.repr, C4.tab_ok, by decide +kernel⟩, ⟨_, C6.repr, C6.tab_ok, by decide +kernel⟩]

/-- **C64 (decreasing).** Except for the double hump kernels, the kernel does not increase with the
distance: its gradient points inwards. -/
theorem C64_decreasing (K : KernelDef) (hK : K ∈ bellKernels ++ shiftKernels.map Prod.fst)
    (h : ℝ) (hh : 0 < h) :
    (∀ r, 0 ≤ r → dW_3d K r h ≤ 0) ∧
    (∀ r s, 0 ≤ r → r ≤ s → W_3d K s h ≤ W_3d K r h) := by
  obtain ⟨T, rp, ok, dec⟩ := bell_repr K hK
  obtain ⟨n1, n2, n3⟩ := norm_pos' rp ok
  have h1 : ∀ r, 0 ≤ r → dW_3d K r h ≤ 0 := by
    intro r hr
    have := rp.df_nonpos dec (q := r / h) (by positivity)
    rw [dW_3d, div_le_iff₀ (by positivity), zero_mul]
    exact mul_nonpos_of_nonneg_of_nonpos n3.le this
  refine ⟨h1, ?_⟩
  intro r s hr hrs
  have := antitoneOn_of_hasDerivWithinAt_nonpos (convex_Ici (0 : ℝ))
    (f := fun r => W_3d K r h) (f' := fun r => dW_3d K r h)
    (fun x _ => (rp.grad ok x hh).continuousAt.continuousWithinAt)
    (fun x _ => (rp.grad ok x hh).hasDerivWithinAt)
    (fun x hx => h1 x (interior_subset hx))
  exact this (Set.mem_Ici.2 hr) (Set.mem_Ici.2 (hr.trans hrs)) hrs

/-- **C64 (strictly decreasing).** For the splines and the Wendland kernels, the kernel decreases
strictly inside the support: of two neighbours the closer one weighs more. -/
theorem C64_strict (K : KernelDef) (hK : K ∈ bellKernels) (h : ℝ) (hh : 0 < h) :
    (∀ r, 0 < r → r < K.Rkern * h → dW_3d K r h < 0) ∧
    (∀ r s, 0 ≤ r → r < s → r < K.Rkern * h → W_3d K s h < W_3d K r h) := by
  obtain ⟨T, rp, ok, dec⟩ := bellS_repr K hK
  obtain ⟨n1, n2, n3⟩ := norm_pos' rp ok
  have h1 : ∀ r, 0 < r → r < K.Rkern * h → dW_3d K r h < 0 := by
    intro r hr hR
    have := rp.df_neg dec (q := r / h) (by positivity) (by rw [div_lt_iff₀ hh]; exact hR)
    rw [dW_3d, div_lt_iff₀ (by positivity), zero_mul]
    exact mul_neg_of_pos_of_neg n3 this
  refine ⟨h1, ?_⟩
  intro r s hr hrs hR
  have anti : StrictAntiOn (fun r => W_3d K r h) (Set.Icc 0 (K.Rkern * h)) := by
    refine strictAntiOn_of_hasDerivWithinAt_neg (convex_Icc _ _)
      (f' := fun r => dW_3d K r h)
      (fun x _ => (rp.grad ok x hh).continuousAt.continuousWithinAt)
      (fun x _ => (rp.grad ok x hh).hasDerivWithinAt) ?_
    intro x hx
    rw [interior_Icc] at hx
    exact h1 x hx.1 hx.2
  have h2 : W_3d K s h ≤ W_3d K (min s (K.Rkern * h)) h :=
    (C64_decreasing K (List.mem_append_left _ hK) h hh).2 _ _
      (le_min (hr.trans hrs.le) (hr.trans hR.le)) (min_le_left _ _)
  refine lt_of_le_of_lt h2 (anti ⟨hr, hR.le⟩ ⟨le_min (hr.trans hrs.le) (hr.trans hR.le),
    min_le_right _ _⟩ (lt_min hrs hR))

theorem smooth_repr : ∀ K ∈ bellKernels ++ humpKernels,
    ∃ T : Tab, Repr K T ∧ T.Ok ∧ T.ok2 = true := by
  intro K hK
  simp only [bellKernels, humpKernels, List.cons_append, List.nil_append, List.mem_cons,
    List.not_mem_nil, or_false] at hK
  rcases hK with h | h | h | h | h | h | h | h | h | h | h | h | h | h <;> subst h
  exacts [⟨_, M4.repr, M4.tab_ok, by decide +kernel⟩, ⟨_, M5.repr, M5.tab_ok, by decide +kernel⟩,
    ⟨_, M6.repr, M6.tab_ok, by decide +kernel⟩, ⟨_, M7.repr, M7.tab_ok, by decide +kernel⟩,
    ⟨_, M8.repr, M8.tab_ok, by decide +kernel⟩, ⟨_, M9.repr, M9.tab_ok, by decide +kernel⟩,
    ⟨_, M10.repr, M10.tab_ok, by decide +kernel⟩, ⟨_, C2.repr, C2.tab_ok, by decide +kernel⟩,
    ⟨_, C4.repr, C4.tab_ok, by decide +kernel⟩, ⟨_, C6.repr, C6.tab_ok, by decide +kernel⟩,
    ⟨_, M4DoubleHump.repr, M4DoubleHump.tab_ok, by decide +kernel⟩,
    ⟨_, M4DoubleHump3.repr, M4DoubleHump3.tab_ok, by decide +kernel⟩,
    ⟨_, M4DoubleHump5.repr, M4DoubleHump5.tab_ok, by decide +kernel⟩,
    ⟨_, M4DoubleHump7.repr, M4DoubleHump7.tab_ok, by decide +kernel⟩]

theorem shift_deriv {c s : ℝ} {df ddf : ℝ → ℝ}
    (h1 : df = fun q => if q < s then 0 else c * M4.df ((q - s) * c))
    (h2 : ddf = fun q => if q < s then 0 else c ^ 2 * M4.ddf ((q - s) * c)) {q : ℝ} (hq : q ≠ s) :
    HasDerivAt df (ddf q) q := by
  rw [h1, h2]
  refine glue (hasDerivAt_const q 0) ?_ fun e => absurd e hq
  have hm := M4.repr.deriv_df M4.tab_ok (by decide +kernel) ((q - s) * c)
  have h3 : HasDerivAt (fun q : ℝ => (q - s) * c) c q := by
    simpa using ((hasDerivAt_id q).sub_const s).mul_const c
  refine ((hm.comp q h3).const_mul c).congr_deriv ?_
  simp only [M4.kernel]
  ring

/-- **C64 (second derivative).** The function `ddW_3d` is the derivative of `dW_3d`: everywhere for
the bell and double hump kernels, and everywhere but at the end of the plateau for the shifted
kernels. -/
theorem C64_second (r h : ℝ) (hh : 0 < h) :
    (∀ K ∈ bellKernels ++ humpKernels, HasDerivAt (fun r => dW_3d K r h) (ddW_3d K r h) r) ∧
    (∀ K s, (K, s) ∈ shiftKernels → r ≠ s * h →
      HasDerivAt (fun r => dW_3d K r h) (ddW_3d K r h) r) := by
  constructor
  · intro K hK
    obtain ⟨T, rp, ok, ok2⟩ := smooth_repr K hK
    exact grad2 (rp.deriv_df ok ok2 _) hh
  · intro K s hK hr
    have hq : r / h ≠ s := fun e => hr (by rw [← e]; field_simp)
    simp only [shiftKernels, List.mem_cons, Prod.mk.injEq, List.not_mem_nil, or_false] at hK
    rcases hK with ⟨rfl, rfl⟩ | ⟨rfl, rfl⟩ | ⟨rfl, rfl⟩ | ⟨rfl, rfl⟩
    · refine grad2 (shift_deriv (c := 2) ?_ ?_ hq) hh
      · funext q; simp [M4Shift2.kernel, M4Shift2.df]
      · funext q; simp only [M4Shift2.kernel, M4Shift2.ddf]; norm_num
    · refine grad2 (shift_deriv (c := 4) ?_ ?_ hq) hh
      · funext q; simp only [M4Shift4.kernel, M4Shift4.df]; norm_num
      · funext q; simp only [M4Shift4.kernel, M4Shift4.ddf]; norm_num
    · refine grad2 (shift_deriv (c := 8) ?_ ?_ hq) hh
      · funext q; simp only [M4Shift8.kernel, M4Shift8.df]; norm_num
      · funext q; simp only [M4Shift8.kernel, M4Shift8.ddf]; norm_num
    · refine grad2 (shift_deriv (c := 16) ?_ ?_ hq) hh
      · funext q; simp only [M4Shift16.kernel, M4Shift16.df]; norm_num
      · funext q; simp only [M4Shift16.kernel, M4Shift16.ddf]; norm_num

/-- **C64 (potential).** Outside the support the softened potential is the Newtonian `-1/r`; inside,
its derivative `phi_3D_prime` is the true derivative and equals the mass of the kernel within the
distance over the squared distance (Gauss), so the force never exceeds the Newtonian one and never
pushes; at distance zero it vanishes, so that a particle does not pull itself. -/
theorem C64_potential (K : KernelDef) (hK : K ∈ kernels) (h : ℝ) (hh : 0 < h) :
    (∀ r, K.Rkern * h ≤ r → phi_3D K r h = -1 / r ∧ phi_3D_prime K r h = 1 / r ^ 2) ∧
    (∀ r, 0 < r →
      HasDerivAt (fun r => phi_3D K r h) (phi_3D_prime K r h) r ∧
      r ^ 2 * phi_3D_prime K r h
        = ∫ x in Metric.ball (0 : EuclideanSpace ℝ (Fin 3)) r, W_3d K ‖x‖ h ∧
      0 ≤ phi_3D_prime K r h ∧ phi_3D_prime K r h ≤ 1 / r ^ 2) ∧
    phi_3D_prime K 0 h = 0 := by
  obtain ⟨T, rp, ok⟩ := kernels_repr K hK
  refine ⟨?_, ?_, ?_⟩
  · intro r hr
    have hR := rp.Rpos ok
    have hr0 : 0 < r := lt_of_lt_of_le (by positivity) hr
    refine ⟨rp.phi_out ok hh hr, ?_⟩
    have h1 : (T.n3 : ℝ) * T.c = 1 := by exact_mod_cast ok.unit
    rw [rp.phi_prime hh hr0, mass_out ok (by rw [← rp.hR, le_div_iff₀ hh]; exact hr), h1]
  · intro r hr
    have g := rp.gauss ok hh hr
    have n0 : ∀ x : EuclideanSpace ℝ (Fin 3), 0 ≤ W_3d K ‖x‖ h := fun x =>
      (C64_positive K hK h hh ‖x‖ (norm_nonneg x)).1.2.2
    have hint : Integrable (fun x : EuclideanSpace ℝ (Fin 3) => W_3d K ‖x‖ h) := by
      by_contra hni
      have := rp.norm3 ok hh
      rw [integral_undef hni] at this
      exact zero_ne_one this
    have g0 : 0 ≤ r ^ 2 * phi_3D_prime K r h := by
      rw [← g]; exact setIntegral_nonneg Metric.isOpen_ball.measurableSet fun x _ => n0 x
    have g1 : r ^ 2 * phi_3D_prime K r h ≤ 1 := by
      rw [← g, ← rp.norm3 ok hh]
      exact setIntegral_le_integral hint (Filter.Eventually.of_forall n0)
    refine ⟨rp.phi_deriv ok hh hr, g.symm, ?_, ?_⟩
    · exact (mul_nonneg_iff_of_pos_left (by positivity)).1 g0
    · rw [le_div_iff₀ (by positivity)]; linarith
  · simp [phi_3D_prime, rp.hphi0]

/-! ### Concrete cases -/

example : (M4.kernel ∈ kernels) ∧ (M4DoubleHump5.kernel ∈ kernels) := by
  simp [kernels, bellKernels, humpKernels]

/-- At the end of the first piece of the cubic spline. -/
example : W_3d M4.kernel 1 1 = 1 / (4 * Real.pi) ∧ dW_3d M4.kernel 1 1 = -3 / (4 * Real.pi) := by
  have := Real.pi_ne_zero
  constructor
  · simp only [W_3d, M4.kernel, M4.f, M4.norm_3d]; norm_num
  · simp only [dW_3d, M4.kernel, M4.df, M4.norm_3d]; norm_num; field_simp

/-- The double hump kernel is zero at the centre and positive beside it: it does increase there. -/
example : W_3d M4DoubleHump.kernel 0 1 = 0 ∧ 0 < W_3d M4DoubleHump.kernel 1 1 := by
  have := Real.pi_pos
  constructor
  · simp [W_3d, M4DoubleHump.kernel, M4DoubleHump.f]
  · exact ((C64_positive _ (by simp [kernels, humpKernels]) 1 one_pos 1 zero_le_one).2 one_pos
      (by norm_num [M4DoubleHump.kernel, M4DoubleHump.Rkern])).2.2

end Shamrock.Kern
