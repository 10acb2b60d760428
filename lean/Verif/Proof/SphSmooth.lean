import Verif.Model.SphSmooth
import Verif.Props.SphKernel
import Verif.Props.NeighCache
import Mathlib.Analysis.Real.Pi.Bounds

/-!
# Smoothing length iteration: density, its slope, and the root
-/

namespace Shamrock.Smooth

open Shamrock.Kern

/-- Distance of two points. -/
noncomputable def dist (xa xb : V3 ℝ) : ℝ := Real.sqrt (dist2 xa xb)

theorem dist2_nonneg (xa xb : V3 ℝ) : 0 ≤ dist2 xa xb := by
  unfold dist2
  nlinarith [mul_self_nonneg (xa.x - xb.x), mul_self_nonneg (xa.y - xb.y),
    mul_self_nonneg (xa.z - xb.z)]

theorem dist_nonneg (xa xb : V3 ℝ) : 0 ≤ dist xa xb := Real.sqrt_nonneg _

theorem dist_self (x : V3 ℝ) : dist x x = 0 := by simp [dist, dist2]

theorem dist_pos {xa xb : V3 ℝ} (h : xa ≠ xb) : 0 < dist xa xb := by
  refine Real.sqrt_pos.2 (lt_of_le_of_ne (dist2_nonneg _ _) fun e => h ?_)
  unfold dist2 at e
  have h1 := mul_self_nonneg (xa.x - xb.x)
  have h2 := mul_self_nonneg (xa.y - xb.y)
  have h3 := mul_self_nonneg (xa.z - xb.z)
  have e1 : (xa.x - xb.x) * (xa.x - xb.x) = 0 := by linarith
  have e2 : (xa.y - xb.y) * (xa.y - xb.y) = 0 := by linarith
  have e3 : (xa.z - xb.z) * (xa.z - xb.z) = 0 := by linarith
  have f1 := mul_self_eq_zero.1 e1
  have f2 := mul_self_eq_zero.1 e2
  have f3 := mul_self_eq_zero.1 e3
  obtain ⟨x, y, z⟩ := xa
  obtain ⟨x', y', z'⟩ := xb
  simp only at f1 f2 f3
  congr 1 <;> linarith

/-- The SPH density at particle `a` for the smoothing length `h`: the sum over all particles. -/
noncomputable def dens (K : KernelDef) (m : ℝ) (X : Nat → V3 ℝ) (N a : Nat) (h : ℝ) : ℝ :=
  ∑ b ∈ Finset.range N, m * W_3d K (dist (X a) (X b)) h

/-- Difference of the density and of the density that belongs to `h`; the iteration seeks its zero. -/
noncomputable def resid (K : KernelDef) (m : ℝ) (X : Nat → V3 ℝ) (N a : Nat) (h : ℝ) : ℝ :=
  dens K m X N a h - rhoH m h K.hfactd

noncomputable def slopeW (K : KernelDef) (m : ℝ) (X : Nat → V3 ℝ) (N a : Nat) (h : ℝ) : ℝ :=
  ∑ b ∈ Finset.range N, m * dhW_3d K (dist (X a) (X b)) h

noncomputable def slope (K : KernelDef) (m : ℝ) (X : Nat → V3 ℝ) (N a : Nat) (h : ℝ) : ℝ :=
  slopeW K m X N a h + 3 * rhoH m h K.hfactd / h

theorem rhoH_deriv (m hf : ℝ) {h : ℝ} (hh : 0 < h) :
    HasDerivAt (fun h => rhoH m h hf) (-(3 * rhoH m h hf / h)) h := by
  have h0 := hh.ne'
  have e1 : HasDerivAt (fun h => hf / h) (-hf / h ^ 2) h := by
    have := (hasDerivAt_inv h0).const_mul hf
    refine this.congr_deriv ?_
    field_simp
  have := ((e1.const_mul m).mul e1).mul e1
  refine this.congr_deriv ?_
  simp only [rhoH, Pi.mul_apply]
  field_simp
  ring

theorem dens_deriv {K : KernelDef} (hK : K ∈ kernels) (m : ℝ) (X : Nat → V3 ℝ) (N a : Nat) {h : ℝ}
    (hh : 0 < h) : HasDerivAt (dens K m X N a) (slopeW K m X N a h) h := by
  have := HasDerivAt.fun_sum (u := Finset.range N) (x := h)
    (A := fun b h => m * W_3d K (dist (X a) (X b)) h)
    (A' := fun b => m * dhW_3d K (dist (X a) (X b)) h)
    (fun b _ => ((C64_gradient K hK (dist (X a) (X b)) h hh).2).const_mul m)
  exact this

theorem resid_deriv {K : KernelDef} (hK : K ∈ kernels) (m : ℝ) (X : Nat → V3 ℝ) (N a : Nat) {h : ℝ}
    (hh : 0 < h) : HasDerivAt (resid K m X N a) (slope K m X N a h) h := by
  have := (dens_deriv hK m X N a hh).sub (rhoH_deriv m K.hfactd hh)
  refine this.congr_deriv ?_
  unfold slope
  ring

/-! ### The sums of the neighbour loop -/

theorem foldlM_add {α : Type} (l : List α) (step : ℝ × ℝ → α → Option (ℝ × ℝ)) (g1 g2 : α → ℝ)
    (h : ∀ b ∈ l, ∀ s, step s b = some (s.1 + g1 b, s.2 + g2 b)) (s : ℝ × ℝ) :
    l.foldlM step s = some (s.1 + (l.map g1).sum, s.2 + (l.map g2).sum) := by
  induction l generalizing s with
  | nil => simp
  | cons b l ih =>
    rw [List.foldlM_cons, h b List.mem_cons_self]
    have := ih (fun b hb => h b (List.mem_cons_of_mem _ hb)) (s.1 + g1 b, s.2 + g2 b)
    simp only [Option.bind_eq_bind, Option.bind_some]
    rw [this]
    simp only [List.map_cons, List.sum_cons, add_assoc]

theorem sum_nodup (l : List Nat) (hl : l.Nodup) (N : Nat) (hlt : ∀ b ∈ l, b < N) (g : Nat → ℝ)
    (h0 : ∀ b < N, b ∉ l → g b = 0) : (l.map g).sum = ∑ b ∈ Finset.range N, g b := by
  rw [← List.sum_toFinset g hl]
  refine Finset.sum_subset ?_ ?_
  · intro b hb
    exact Finset.mem_range.2 (hlt b (List.mem_toFinset.1 hb))
  · intro b hb hn
    exact h0 b (Finset.mem_range.1 hb) fun h => hn (List.mem_toFinset.2 h)

theorem far_dist {R h : ℝ} {xa xb : V3 ℝ}
    (hf : h * h * R * R < dist2 xa xb) : R * h ≤ dist xa xb := by
  refine Real.le_sqrt_of_sq_le ?_
  nlinarith

theorem Rk_pos {K : KernelDef} (hK : K ∈ kernels) : 0 < K.Rkern := by
  obtain ⟨T, rp, ok⟩ := kernels_repr K hK
  exact rp.Rpos ok

/-- The neighbour loop computes the full sums if the list holds all particles within the support. -/
theorem sums_full {K : KernelDef} (hK : K ∈ kernels) (m : ℝ) (X : Nat → V3 ℝ) (N a : Nat) {h : ℝ}
    (hh : 0 < h) (pos : List (V3 ℝ)) (hpos : ∀ i < N, pos[i]? = some (X i)) (ids : List Nat)
    (hnd : ids.Nodup) (hlt : ∀ b ∈ ids, b < N)
    (hall : ∀ b < N, dist2 (X a) (X b) ≤ h * h * K.Rkern * K.Rkern → b ∈ ids) :
    sums K m pos (X a) h ids = some (dens K m X N a h, slopeW K m X N a h) := by
  have h0 : ∀ b, h * h * K.Rkern * K.Rkern < dist2 (X a) (X b) →
      m * W_3d K (dist (X a) (X b)) h = 0 ∧ m * dhW_3d K (dist (X a) (X b)) h = 0 := by
    intro b hb
    have := C64_support K hK h hh _ (far_dist hb)
    simp [this.2.2.1, this.2.2.2.2.2]
  unfold sums
  rw [foldlM_add ids _ (fun b => m * W_3d K (dist (X a) (X b)) h)
    (fun b => m * dhW_3d K (dist (X a) (X b)) h)]
  · rw [sum_nodup ids hnd N hlt, sum_nodup ids hnd N hlt]
    · simp [dens, slopeW]
    · intro b hb hn
      exact (h0 b (not_le.1 fun hle => hn (hall b hb hle))).2
    · intro b hb hn
      exact (h0 b (not_le.1 fun hle => hn (hall b hb hle))).1
  · intro b hb s
    rw [hpos b (hlt b hb)]
    simp only [Option.bind_eq_bind, Option.bind_some]
    split_ifs with hf
    · obtain ⟨e1, e2⟩ := h0 b hf
      rw [e1, e2]; simp
    · rfl

/-! ### Monotonicity for the decreasing kernels -/

section bell
variable {K : KernelDef} (hK : K ∈ bellKernels)
include hK

theorem bell_mem : K ∈ kernels := by
  unfold kernels
  exact List.mem_append_left _ (List.mem_append_left _ hK)

theorem bell_n3 : 0 < K.norm_3d := by
  obtain ⟨T, rp, ok⟩ := kernels_repr K (bell_mem hK)
  exact (norm_pos' rp ok).2.2

theorem W_one (r : ℝ) : W_3d K r 1 = K.norm_3d * K.f r := by simp [W_3d]

theorem bell_anti {r s : ℝ} (hr : 0 ≤ r) (hrs : r ≤ s) : K.f s ≤ K.f r := by
  have := (C64_decreasing K (List.mem_append_left _ hK) 1 one_pos).2 r s hr hrs
  rw [W_one hK, W_one hK] at this
  exact le_of_mul_le_mul_left this (bell_n3 hK)

theorem bell_strict {r s : ℝ} (hr : 0 ≤ r) (hrs : r < s) (hR : r < K.Rkern) : K.f s < K.f r := by
  have := (C64_strict K hK 1 one_pos).2 r s hr hrs (by linarith)
  rw [W_one hK, W_one hK] at this
  exact lt_of_mul_lt_mul_left this (bell_n3 hK).le

/-- `h³` times the density, in terms of the shape. -/
theorem cube_dens (m : ℝ) (X : Nat → V3 ℝ) (N a : Nat) {h : ℝ} (hh : 0 < h) :
    h ^ 3 * dens K m X N a h
      = ∑ b ∈ Finset.range N, m * K.norm_3d * K.f (dist (X a) (X b) / h) := by
  rw [dens, Finset.mul_sum]
  refine Finset.sum_congr rfl fun b _ => ?_
  simp only [W_3d]
  field_simp

theorem cube_rhoH (m hf : ℝ) {h : ℝ} (hh : 0 < h) : h ^ 3 * rhoH m h hf = m * hf ^ 3 := by
  unfold rhoH
  field_simp

theorem root_iff (m : ℝ) (X : Nat → V3 ℝ) (N a : Nat) {h : ℝ} (hh : 0 < h) :
    resid K m X N a h = 0 ↔
      ∑ b ∈ Finset.range N, m * K.norm_3d * K.f (dist (X a) (X b) / h) = m * K.hfactd ^ 3 := by
  rw [← cube_dens hK m X N a hh, ← cube_rhoH hK m K.hfactd hh, resid]
  have : h ^ 3 ≠ 0 := by positivity
  constructor
  · intro e; rw [show dens K m X N a h = rhoH m h K.hfactd by linarith]
  · intro e; have := mul_left_cancel₀ this e; linarith

/-- The slope is at least `-3 resid / h`, strictly more if another particle is in the support. -/
theorem slope_ge {m : ℝ} (hm : 0 < m) (X : Nat → V3 ℝ) (N a : Nat) {h : ℝ} (hh : 0 < h) :
    -(3 * resid K m X N a h / h) ≤ slope K m X N a h ∧
    ((∃ b < N, 0 < dist (X a) (X b) ∧ dist (X a) (X b) < K.Rkern * h) →
      -(3 * resid K m X N a h / h) < slope K m X N a h) := by
  have n3 := bell_n3 hK
  obtain ⟨T, rp, ok, dec⟩ := bell_repr K (List.mem_append_left _ hK)
  obtain ⟨T', rp', ok', decS⟩ := bellS_repr K hK
  have key : slope K m X N a h + 3 * resid K m X N a h / h
      = ∑ b ∈ Finset.range N,
        m * K.norm_3d / h ^ 4 * (dist (X a) (X b) / h * -(K.df (dist (X a) (X b) / h))) := by
    have e : slope K m X N a h + 3 * resid K m X N a h / h
        = slopeW K m X N a h + 3 * dens K m X N a h / h := by
      unfold slope resid; field_simp; ring
    rw [e, slopeW, dens, Finset.mul_sum, Finset.sum_div, ← Finset.sum_add_distrib]
    refine Finset.sum_congr rfl fun b _ => ?_
    simp only [dhW_3d, W_3d]
    field_simp
    ring
  have term : ∀ b, 0 ≤ m * K.norm_3d / h ^ 4 *
      (dist (X a) (X b) / h * -(K.df (dist (X a) (X b) / h))) := by
    intro b
    have h1 : 0 ≤ dist (X a) (X b) / h := div_nonneg (dist_nonneg _ _) hh.le
    have h2 := rp.df_nonpos dec h1
    have h3 : 0 ≤ -(K.df (dist (X a) (X b) / h)) := by linarith
    positivity
  constructor
  · have := Finset.sum_nonneg fun b (_ : b ∈ Finset.range N) => term b
    rw [← key] at this
    linarith
  · rintro ⟨b, hb, hd, hR⟩
    have hpos : 0 < m * K.norm_3d / h ^ 4 *
        (dist (X a) (X b) / h * -(K.df (dist (X a) (X b) / h))) := by
      have h1 : 0 < dist (X a) (X b) / h := div_pos hd hh
      have h2 := rp'.df_neg decS h1 (by rw [div_lt_iff₀ hh]; exact hR)
      have h3 : 0 < -(K.df (dist (X a) (X b) / h)) := by linarith
      positivity
    have := Finset.sum_pos' (fun b (_ : b ∈ Finset.range N) => term b)
      ⟨b, Finset.mem_range.2 hb, hpos⟩
    rw [← key] at this
    linarith

/-- A particle alone in its support has a density above that of its smoothing length never. -/
theorem self_low : K.norm_3d * K.f 0 < K.hfactd ^ 3 := by
  have h3 := Real.pi_gt_three
  have hp := Real.pi_pos
  simp only [bellKernels, List.mem_cons, List.not_mem_nil, or_false] at hK
  rcases hK with h | h | h | h | h | h | h | h | h | h <;> subst h <;>
  simp only [M4.kernel, M4.f, M4.norm_3d, M4.hfactd, M5.kernel, M5.f, M5.norm_3d, M5.hfactd,
    M6.kernel, M6.f, M6.norm_3d, M6.hfactd, M7.kernel, M7.f, M7.norm_3d, M7.hfactd,
    M8.kernel, M8.f, M8.norm_3d, M8.hfactd, M9.kernel, M9.f, M9.norm_3d, M9.hfactd,
    M10.kernel, M10.f, M10.norm_3d, M10.hfactd, C2.kernel, C2.f, C2.norm_3d, C2.hfactd,
    C4.kernel, C4.f, C4.norm_3d, C4.hfactd, C6.kernel, C6.f, C6.norm_3d, C6.hfactd] <;>
  norm_num <;> field_simp <;> nlinarith

/-- With no other particle at its place, the others within the support matter at a root. -/
theorem root_neigh {m : ℝ} (hm : 0 < m) (X : Nat → V3 ℝ) (N a : Nat) (ha : a < N)
    (hX : ∀ b < N, b ≠ a → X b ≠ X a) {h : ℝ} (hh : 0 < h) (h0 : resid K m X N a h = 0) :
    ∃ b < N, 0 < dist (X a) (X b) ∧ dist (X a) (X b) < K.Rkern * h := by
  by_contra hno
  push Not at hno
  have e := (root_iff hK m X N a hh).1 h0
  rw [Finset.sum_eq_single a] at e
  · rw [dist_self, zero_div, mul_assoc] at e
    have := mul_left_cancel₀ hm.ne' e
    exact absurd this (self_low hK).ne
  · intro b hb hba
    have hd := dist_pos (hX b (Finset.mem_range.1 hb) hba).symm
    have := hno b (Finset.mem_range.1 hb) hd
    obtain ⟨T, rp, ok⟩ := kernels_repr K (bell_mem hK)
    rw [rp.f_zero ok (by rw [le_div_iff₀ hh]; exact this), mul_zero]
  · intro hn; exact absurd (Finset.mem_range.2 ha) hn

theorem root_unique {m : ℝ} (hm : 0 < m) (X : Nat → V3 ℝ) (N a : Nat) (ha : a < N)
    (hX : ∀ b < N, b ≠ a → X b ≠ X a) {h k : ℝ} (hh : 0 < h) (hk : 0 < k)
    (h0 : resid K m X N a h = 0) (k0 : resid K m X N a k = 0) : h = k := by
  wlog hlt : h < k generalizing h k
  · rcases lt_trichotomy h k with e | e | e
    · exact this hh hk h0 k0 e
    · exact e
    · exact (this hk hh k0 h0 e).symm
  exfalso
  have e1 := (root_iff hK m X N a hh).1 h0
  have e2 := (root_iff hK m X N a hk).1 k0
  obtain ⟨b, hb, hd, hR⟩ := root_neigh hK hm X N a ha hX hk k0
  have n3 := bell_n3 hK
  have : ∑ b ∈ Finset.range N, m * K.norm_3d * K.f (dist (X a) (X b) / h)
      < ∑ b ∈ Finset.range N, m * K.norm_3d * K.f (dist (X a) (X b) / k) := by
    refine Finset.sum_lt_sum ?_ ⟨b, Finset.mem_range.2 hb, ?_⟩
    · intro c _
      refine mul_le_mul_of_nonneg_left (bell_anti hK (div_nonneg (dist_nonneg _ _) hk.le) ?_)
        (by positivity)
      exact div_le_div_of_nonneg_left (dist_nonneg _ _) hh hlt.le
    · refine mul_lt_mul_of_pos_left (bell_strict hK (div_nonneg hd.le hk.le) ?_ ?_) (by positivity)
      · exact div_lt_div_of_pos_left hd hh hlt
      · rw [div_lt_iff₀ hk]; exact hR
  rw [e1, e2] at this
  exact lt_irrefl _ this

/-- Enough particles: there is a root. -/
theorem root_exists {m : ℝ} (hm : 0 < m) (X : Nat → V3 ℝ) (N a : Nat) (ha : a < N)
    (hX : ∀ b < N, b ≠ a → X b ≠ X a) (hN : K.hfactd ^ 3 < N * (K.norm_3d * K.f 0)) :
    ∃ h, 0 < h ∧ resid K m X N a h = 0 := by
  have n3 := bell_n3 hK
  have hRk := Rk_pos (bell_mem hK)
  obtain ⟨T, rp, ok⟩ := kernels_repr K (bell_mem hK)
  let G : ℝ → ℝ := fun h => ∑ b ∈ Finset.range N, m * K.norm_3d * K.f (dist (X a) (X b) / h)
  have hG : ContinuousOn G (Set.Ioi 0) := by
    refine continuousOn_finsetSum _ fun b _ => ?_
    refine continuousOn_const.mul ((rp.cont_f ok).comp_continuousOn ?_)
    exact continuousOn_const.div continuousOn_id fun x hx => (ne_of_gt hx)
  have hi : ∃ k, 0 < k ∧ m * K.hfactd ^ 3 < G k := by
    have ht : Filter.Tendsto G Filter.atTop
        (nhds (∑ b ∈ Finset.range N, m * K.norm_3d * K.f 0)) := by
      refine tendsto_finsetSum _ fun b _ => ?_
      refine Filter.Tendsto.const_mul _ ?_
      refine ((rp.cont_f ok).tendsto 0).comp ?_
      exact Filter.Tendsto.div_atTop tendsto_const_nhds Filter.tendsto_id
    have hlt : m * K.hfactd ^ 3 < ∑ b ∈ Finset.range N, m * K.norm_3d * K.f 0 := by
      rw [Finset.sum_const, Finset.card_range, nsmul_eq_mul]
      have := mul_lt_mul_of_pos_left hN hm
      linarith
    obtain ⟨k, hk⟩ := ((ht.eventually (lt_mem_nhds hlt)).and (Filter.eventually_gt_atTop 0)).exists
    exact ⟨k, hk.2, hk.1⟩
  have lo : ∃ h, 0 < h ∧ G h < m * K.hfactd ^ 3 := by
    have : ∃ h, 0 < h ∧ ∀ b < N, b ≠ a → K.Rkern * h ≤ dist (X a) (X b) := by
      clear hN hi
      have key : ∀ n ≤ N, ∃ h, 0 < h ∧ ∀ b < n, b ≠ a → K.Rkern * h ≤ dist (X a) (X b) := by
        intro n
        induction n with
        | zero => intro _; exact ⟨1, one_pos, fun b hb => absurd hb (Nat.not_lt_zero _)⟩
        | succ n ih =>
          intro hn
          obtain ⟨h, h0, hb⟩ := ih (by omega)
          by_cases e : n = a
          · refine ⟨h, h0, fun b hbn hba => hb b (by omega) hba⟩
          · have hd := dist_pos (hX n (by omega) e).symm
            refine ⟨min h (dist (X a) (X n) / K.Rkern), lt_min h0 (by positivity), ?_⟩
            intro b hbn hba
            rcases Nat.lt_succ_iff_lt_or_eq.1 hbn with h1 | h1
            · exact le_trans (mul_le_mul_of_nonneg_left (min_le_left _ _) hRk.le) (hb b h1 hba)
            · subst h1
              refine le_trans (mul_le_mul_of_nonneg_left (min_le_right _ _) hRk.le) ?_
              rw [mul_div_cancel₀ _ hRk.ne']
      exact key N le_rfl
    obtain ⟨h, h0, hb⟩ := this
    refine ⟨h, h0, ?_⟩
    show ∑ b ∈ Finset.range N, m * K.norm_3d * K.f (dist (X a) (X b) / h) < _
    rw [Finset.sum_eq_single a]
    · rw [dist_self, zero_div, mul_assoc]
      exact mul_lt_mul_of_pos_left (self_low hK) hm
    · intro b hbn hba
      rw [rp.f_zero ok (by rw [le_div_iff₀ h0]; exact hb b (Finset.mem_range.1 hbn) hba), mul_zero]
    · intro hn; exact absurd (Finset.mem_range.2 ha) hn
  obtain ⟨k, k0, hk⟩ := hi
  obtain ⟨h, h0, hl⟩ := lo
  obtain ⟨x, hx, e⟩ := isPreconnected_Ioi.intermediate_value (Set.mem_Ioi.2 h0) (Set.mem_Ioi.2 k0) hG
    (Set.mem_Icc.2 ⟨hl.le, hk.le⟩)
  exact ⟨x, hx, (root_iff hK m X N a hx).2 e⟩

end bell

end Shamrock.Smooth
