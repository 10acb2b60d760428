import Verif.Proof.SphKernel
import Mathlib.Tactic.NormNum

/-!
# Tables of the kernels (generated by tools/gen_kern_tab.py, checked by the kernel)
-/

namespace Shamrock.Kern

namespace M4

/-- Tables of the kernel `M4` (checked against the model below). -/
def tab : Tab :=
  { R := 2, n1 := 2/3, n2 := 10/7, n3 := 1,
    t := [(1, [1, 0, -3/2, 3/4]),
      (2, [2, -3, 3/2, -1/4])],
    ph := [(1, [0, -7/5, 0, 2/3, 0, -3/10, 1/10]),
      (2, [1/15, -8/5, 0, 4/3, -1, 3/10, -1/30])],
    c := 1 }

theorem tab_ok : tab.Ok := by constructor <;> decide +kernel

theorem repr_f (q : ℝ) : kernel.f q = evPW tab.t [] q := by
  simp only [kernel, f, tab, evPW, ev]
  push_cast
  split_ifs <;> first | ring1 | (exfalso; linarith)

theorem repr_df (q : ℝ) : kernel.df q = evPW (dPW tab.t) [] q := by
  simp only [kernel, df, tab, dPW, List.map, pD, padd, pX, evPW, ev]
  push_cast
  split_ifs <;> first | ring1 | (exfalso; linarith)

theorem repr_ddf (q : ℝ) : kernel.ddf q = evPW (dPW (dPW tab.t)) [] q := by
  simp only [kernel, ddf, tab, dPW, List.map, pD, padd, pX, evPW, ev]
  push_cast
  split_ifs <;> first | ring1 | (exfalso; linarith)

theorem repr_phi (q : ℝ) (hq : 0 < q) :
    kernel.phi_tilde_3d q = Real.pi * evPW tab.ph [-tab.c] q / q := by
  simp only [kernel, phi_tilde_3d, tab, evPW, ev]
  push_cast
  split_ifs <;> first | (field_simp; ring1) | (exfalso; linarith)

theorem repr_phi' (q : ℝ) (hq : 0 < q) :
    kernel.phi_tilde_3d_prime q = Real.pi * evPW (mapPW qp tab.ph) [tab.c] q / q ^ 2 := by
  simp only [kernel, phi_tilde_3d_prime, tab, mapPW, List.map, qp, psc, pD, padd, pX, evPW, ev]
  push_cast
  split_ifs <;> first | (field_simp; ring1) | (exfalso; linarith)

theorem repr : Repr kernel tab where
  hR := by norm_num [kernel, Rkern, tab]
  h1 := by norm_num [kernel, norm_1d, tab]
  h2 := by
    have := Real.pi_ne_zero
    simp only [kernel, norm_2d, tab]; push_cast; field_simp; try norm_num
  h3 := by
    have := Real.pi_ne_zero
    simp only [kernel, norm_3d, tab]; push_cast; field_simp; try norm_num
  hf := repr_f
  hdf := repr_df
  hddf := repr_ddf
  hphi := repr_phi
  hphi' := repr_phi'
  hphi0 := by norm_num [kernel, phi_tilde_3d_prime]

end M4

namespace M5

/-- Tables of the kernel `M5` (checked against the model below). -/
def tab : Tab :=
  { R := 5/2, n1 := 1/24, n2 := 96/1199, n3 := 1/20,
    t := [(1/2, [115/8, 0, -15, 0, 6]),
      (3/2, [55/4, 5, -30, 20, -4]),
      (5/2, [625/16, -125/2, 75/2, -10, 1])],
    ph := [(1/2, [0, -1199/48, 0, 115/12, 0, -3, 0, 4/7]),
      (3/2, [-1/336, -599/24, 0, 55/6, 5/3, -6, 8/3, -8/21]),
      (5/2, [2185/672, -3125/96, 0, 625/24, -125/6, 15/2, -4/3, 2/21])],
    c := 20 }

theorem tab_ok : tab.Ok := by constructor <;> decide +kernel

theorem repr_f (q : ℝ) : kernel.f q = evPW tab.t [] q := by
  simp only [kernel, f, tab, evPW, ev]
  push_cast
  split_ifs <;> first | ring1 | (exfalso; linarith)

theorem repr_df (q : ℝ) : kernel.df q = evPW (dPW tab.t) [] q := by
  simp only [kernel, df, tab, dPW, List.map, pD, padd, pX, evPW, ev]
  push_cast
  split_ifs <;> first | ring1 | (exfalso; linarith)

theorem repr_ddf (q : ℝ) : kernel.ddf q = evPW (dPW (dPW tab.t)) [] q := by
  simp only [kernel, ddf, tab, dPW, List.map, pD, padd, pX, evPW, ev]
  push_cast
  split_ifs <;> first | ring1 | (exfalso; linarith)

theorem repr_phi (q : ℝ) (hq : 0 < q) :
    kernel.phi_tilde_3d q = Real.pi * evPW tab.ph [-tab.c] q / q := by
  simp only [kernel, phi_tilde_3d, tab, evPW, ev]
  push_cast
  split_ifs <;> first | (field_simp; ring1) | (exfalso; linarith)

theorem repr_phi' (q : ℝ) (hq : 0 < q) :
    kernel.phi_tilde_3d_prime q = Real.pi * evPW (mapPW qp tab.ph) [tab.c] q / q ^ 2 := by
  simp only [kernel, phi_tilde_3d_prime, tab, mapPW, List.map, qp, psc, pD, padd, pX, evPW, ev]
  push_cast
  split_ifs <;> first | (field_simp; ring1) | (exfalso; linarith)

theorem repr : Repr kernel tab where
  hR := by norm_num [kernel, Rkern, tab]
  h1 := by norm_num [kernel, norm_1d, tab]
  h2 := by
    have := Real.pi_ne_zero
    simp only [kernel, norm_2d, tab]; push_cast; field_simp; try norm_num
  h3 := by
    have := Real.pi_ne_zero
    simp only [kernel, norm_3d, tab]; push_cast; field_simp; try norm_num
  hf := repr_f
  hdf := repr_df
  hddf := repr_ddf
  hphi := repr_phi
  hphi' := repr_phi'
  hphi0 := by norm_num [kernel, phi_tilde_3d_prime]

end M5

namespace M6

/-- Tables of the kernel `M6` (checked against the model below). -/
def tab : Tab :=
  { R := 3, n1 := 1/120, n2 := 7/478, n3 := 1/120,
    t := [(1, [66, 0, -60, 0, 30, -10]),
      (2, [51, 75, -210, 150, -45, 5]),
      (3, [243, -405, 270, -90, 15, -1])],
    ph := [(1, [0, -956/7, 0, 44, 0, -12, 0, 20/7, -5/7]),
      (2, [-5/14, -946/7, 0, 34, 25, -42, 20, -30/7, 5/14]),
      (3, [507/14, -1458/7, 0, 162, -135, 54, -12, 10/7, -1/14])],
    c := 120 }

theorem tab_ok : tab.Ok := by constructor <;> decide +kernel

theorem repr_f (q : ℝ) : kernel.f q = evPW tab.t [] q := by
  simp only [kernel, f, tab, evPW, ev]
  push_cast
  split_ifs <;> first | ring1 | (exfalso; linarith)

theorem repr_df (q : ℝ) : kernel.df q = evPW (dPW tab.t) [] q := by
  simp only [kernel, df, tab, dPW, List.map, pD, padd, pX, evPW, ev]
  push_cast
  split_ifs <;> first | ring1 | (exfalso; linarith)

theorem repr_ddf (q : ℝ) : kernel.ddf q = evPW (dPW (dPW tab.t)) [] q := by
  simp only [kernel, ddf, tab, dPW, List.map, pD, padd, pX, evPW, ev]
  push_cast
  split_ifs <;> first | ring1 | (exfalso; linarith)

theorem repr_phi (q : ℝ) (hq : 0 < q) :
    kernel.phi_tilde_3d q = Real.pi * evPW tab.ph [-tab.c] q / q := by
  simp only [kernel, phi_tilde_3d, tab, evPW, ev]
  push_cast
  split_ifs <;> first | (field_simp; ring1) | (exfalso; linarith)

theorem repr_phi' (q : ℝ) (hq : 0 < q) :
    kernel.phi_tilde_3d_prime q = Real.pi * evPW (mapPW qp tab.ph) [tab.c] q / q ^ 2 := by
  simp only [kernel, phi_tilde_3d_prime, tab, mapPW, List.map, qp, psc, pD, padd, pX, evPW, ev]
  push_cast
  split_ifs <;> first | (field_simp; ring1) | (exfalso; linarith)

theorem repr : Repr kernel tab where
  hR := by norm_num [kernel, Rkern, tab]
  h1 := by norm_num [kernel, norm_1d, tab]
  h2 := by
    have := Real.pi_ne_zero
    simp only [kernel, norm_2d, tab]; push_cast; field_simp; try norm_num
  h3 := by
    have := Real.pi_ne_zero
    simp only [kernel, norm_3d, tab]; push_cast; field_simp; try norm_num
  hf := repr_f
  hdf := repr_df
  hddf := repr_ddf
  hphi := repr_phi
  hphi' := repr_phi'
  hphi0 := by norm_num [kernel, phi_tilde_3d_prime]

end M6

namespace M7

/-- Tables of the kernel `M7` (checked against the model below). -/
def tab : Tab :=
  { R := 7/2, n1 := 1/720, n2 := 256/113149, n3 := 1/840,
    t := [(1/2, [5887/16, 0, -1155/4, 0, 105, 0, -20]),
      (3/2, [23583/64, -105/16, -4095/16, -175/2, 945/4, -105, 15]),
      (5/2, [4137/32, 3801/4, -14805/8, 1330, -945/2, 84, -6]),
      (7/2, [117649/64, -50421/16, 36015/16, -1715/2, 735/4, -21, 1])],
    ph := [(1/2, [0, -113149/128, 0, 5887/24, 0, -231/4, 0, 10, 0, -10/9]),
      (3/2, [5/4608, -452601/512, 0, 7861/32, -35/16, -819/16, -35/3, 45/2, -15/2, 5/6]),
      (5/2, [-14761/1152, -216459/256, 0, 1379/16, 1267/4, -2961/8, 532/3, -45, 6, -1/3]),
      (7/2, [1894081/4608, -823543/512, 0, 117649/96, -16807/16, 7203/16, -343/3, 35/2, -3/2,
          1/18])],
    c := 840 }

theorem tab_ok : tab.Ok := by constructor <;> decide +kernel

theorem repr_f (q : ℝ) : kernel.f q = evPW tab.t [] q := by
  simp only [kernel, f, tab, evPW, ev]
  push_cast
  split_ifs <;> first | ring1 | (exfalso; linarith)

theorem repr_df (q : ℝ) : kernel.df q = evPW (dPW tab.t) [] q := by
  simp only [kernel, df, tab, dPW, List.map, pD, padd, pX, evPW, ev]
  push_cast
  split_ifs <;> first | ring1 | (exfalso; linarith)

theorem repr_ddf (q : ℝ) : kernel.ddf q = evPW (dPW (dPW tab.t)) [] q := by
  simp only [kernel, ddf, tab, dPW, List.map, pD, padd, pX, evPW, ev]
  push_cast
  split_ifs <;> first | ring1 | (exfalso; linarith)

theorem repr_phi (q : ℝ) (hq : 0 < q) :
    kernel.phi_tilde_3d q = Real.pi * evPW tab.ph [-tab.c] q / q := by
  simp only [kernel, phi_tilde_3d, tab, evPW, ev]
  push_cast
  split_ifs <;> first | (field_simp; ring1) | (exfalso; linarith)

theorem repr_phi' (q : ℝ) (hq : 0 < q) :
    kernel.phi_tilde_3d_prime q = Real.pi * evPW (mapPW qp tab.ph) [tab.c] q / q ^ 2 := by
  simp only [kernel, phi_tilde_3d_prime, tab, mapPW, List.map, qp, psc, pD, padd, pX, evPW, ev]
  push_cast
  split_ifs <;> first | (field_simp; ring1) | (exfalso; linarith)

theorem repr : Repr kernel tab where
  hR := by norm_num [kernel, Rkern, tab]
  h1 := by norm_num [kernel, norm_1d, tab]
  h2 := by
    have := Real.pi_ne_zero
    simp only [kernel, norm_2d, tab]; push_cast; field_simp; try norm_num
  h3 := by
    have := Real.pi_ne_zero
    simp only [kernel, norm_3d, tab]; push_cast; field_simp; try norm_num
  hf := repr_f
  hdf := repr_df
  hddf := repr_ddf
  hphi := repr_phi
  hphi' := repr_phi'
  hphi0 := by norm_num [kernel, phi_tilde_3d_prime]

end M7

end Shamrock.Kern
