import Verif.Proof.SphKernel
import Mathlib.Tactic.NormNum

/-!
# Tables of the kernels (generated by tools/gen_kern_tab.py, checked by the kernel)
-/

namespace Shamrock.Kern

namespace M4Shift2

/-- Tables of the kernel `M4Shift2` (checked against the model below). -/
def tab : Tab :=
  { R := 2, n1 := 4/11, n2 := 40/77, n3 := 120/439,
    t := [(1, [1]),
      (3/2, [-11, 30, -24, 6]),
      (2, [16, -24, 12, -2])],
    ph := [(1, [0, -77/20, 0, 2/3]),
      (3/2, [-6/5, -13/20, 0, -22/3, 10, -24/5, 4/5]),
      (2, [39/8, -64/5, 0, 32/3, -8, 12/5, -4/15])],
    c := 439/120 }

theorem tab_ok : tab.Ok := by constructor <;> decide +kernel

theorem repr_f (q : ℝ) : kernel.f q = evPW tab.t [] q := by
  simp only [kernel, f, tab, evPW, ev, M4.f, M4.df, M4.ddf]
  push_cast
  split_ifs <;> first | ring1 | (exfalso; linarith)

theorem repr_df (q : ℝ) : kernel.df q = evPW (dPW tab.t) [] q := by
  simp only [kernel, df, tab, dPW, List.map, pD, padd, pX, evPW, ev, M4.f, M4.df, M4.ddf]
  push_cast
  split_ifs <;> first | ring1 | (exfalso; linarith)

theorem repr_ddf (q : ℝ) : kernel.ddf q = evPW (dPW (dPW tab.t)) [] q := by
  simp only [kernel, ddf, tab, dPW, List.map, pD, padd, pX, evPW, ev, M4.f, M4.df, M4.ddf]
  push_cast
  split_ifs <;> first | ring1 | (exfalso; linarith)

theorem repr_phi (q : ℝ) (hq : 0 < q) :
    kernel.phi_tilde_3d q = Real.pi * evPW tab.ph [-tab.c] q / q := by
  simp only [kernel, phi_tilde_3d, tab, evPW, ev]
  push_cast
  split_ifs <;> first | (field_simp; ring1) | (exfalso; linarith)

theorem repr_phi' (q : ℝ) (hq : 0 < q) :
    kernel.phi_tilde_3d_prime q = Real.pi * evPW (mapPW qp tab.ph) [tab.c] q / q ^ 2 := by
  simp only [kernel, phi_tilde_3d_prime, tab, mapPW, List.map, qp, psc, pD, padd, pX, evPW, ev]
  push_cast
  split_ifs <;> first | (field_simp; ring1) | (exfalso; linarith)

theorem repr : Repr kernel tab where
  hR := by norm_num [kernel, Rkern, tab]
  h1 := by norm_num [kernel, norm_1d, tab]
  h2 := by
    have := Real.pi_ne_zero
    simp only [kernel, norm_2d, tab]; push_cast; field_simp; try norm_num
  h3 := by
    have := Real.pi_ne_zero
    simp only [kernel, norm_3d, tab]; push_cast; field_simp; try norm_num
  hf := repr_f
  hdf := repr_df
  hddf := repr_ddf
  hphi := repr_phi
  hphi' := repr_phi'
  hphi0 := by norm_num [kernel, phi_tilde_3d_prime]

end M4Shift2

namespace M4Shift4

/-- Tables of the kernel `M4Shift4` (checked against the model below). -/
def tab : Tab :=
  { R := 2, n1 := 8/27, n2 := 160/457, n3 := 320/2069,
    t := [(3/2, [1]),
      (7/4, [-215, 396, -240, 48]),
      (2, [128, -192, 96, -16])],
    ph := [(3/2, [0, -457/80, 0, 2/3]),
      (7/4, [-243/4, 1723/16, 0, -430/3, 132, -48, 32/5]),
      (2, [59329/960, -512/5, 0, 256/3, -64, 96/5, -32/15])],
    c := 2069/320 }

theorem tab_ok : tab.Ok := by constructor <;> decide +kernel

theorem repr_f (q : ℝ) : kernel.f q = evPW tab.t [] q := by
  simp only [kernel, f, tab, evPW, ev, M4.f, M4.df, M4.ddf]
  push_cast
  split_ifs <;> first | ring1 | (exfalso; linarith)

theorem repr_df (q : ℝ) : kernel.df q = evPW (dPW tab.t) [] q := by
  simp only [kernel, df, tab, dPW, List.map, pD, padd, pX, evPW, ev, M4.f, M4.df, M4.ddf]
  push_cast
  split_ifs <;> first | ring1 | (exfalso; linarith)

theorem repr_ddf (q : ℝ) : kernel.ddf q = evPW (dPW (dPW tab.t)) [] q := by
  simp only [kernel, ddf, tab, dPW, List.map, pD, padd, pX, evPW, ev, M4.f, M4.df, M4.ddf]
  push_cast
  split_ifs <;> first | ring1 | (exfalso; linarith)

theorem repr_phi (q : ℝ) (hq : 0 < q) :
    kernel.phi_tilde_3d q = Real.pi * evPW tab.ph [-tab.c] q / q := by
  simp only [kernel, phi_tilde_3d, tab, evPW, ev]
  push_cast
  split_ifs <;> first | (field_simp; ring1) | (exfalso; linarith)

theorem repr_phi' (q : ℝ) (hq : 0 < q) :
    kernel.phi_tilde_3d_prime q = Real.pi * evPW (mapPW qp tab.ph) [tab.c] q / q ^ 2 := by
  simp only [kernel, phi_tilde_3d_prime, tab, mapPW, List.map, qp, psc, pD, padd, pX, evPW, ev]
  push_cast
  split_ifs <;> first | (field_simp; ring1) | (exfalso; linarith)

theorem repr : Repr kernel tab where
  hR := by norm_num [kernel, Rkern, tab]
  h1 := by norm_num [kernel, norm_1d, tab]
  h2 := by
    have := Real.pi_ne_zero
    simp only [kernel, norm_2d, tab]; push_cast; field_simp; try norm_num
  h3 := by
    have := Real.pi_ne_zero
    simp only [kernel, norm_3d, tab]; push_cast; field_simp; try norm_num
  hf := repr_f
  hdf := repr_df
  hddf := repr_ddf
  hphi := repr_phi
  hphi' := repr_phi'
  hphi0 := by norm_num [kernel, phi_tilde_3d_prime]

end M4Shift4

namespace M4Shift8

/-- Tables of the kernel `M4Shift8` (checked against the model below). -/
def tab : Tab :=
  { R := 2, n1 := 16/59, n2 := 640/2177, n3 := 7680/64303,
    t := [(7/4, [1]),
      (15/8, [-2351, 3864, -2112, 384]),
      (2, [1024, -1536, 768, -128])],
    ph := [(7/4, [0, -2177/320, 0, 2/3]),
      (15/8, [-151263/160, 497231/320, 0, -4702/3, 1288, -2112/5, 256/5]),
      (2, [1376667/2560, -4096/5, 0, 2048/3, -512, 768/5, -256/15])],
    c := 64303/7680 }

theorem tab_ok : tab.Ok := by constructor <;> decide +kernel

theorem repr_f (q : ℝ) : kernel.f q = evPW tab.t [] q := by
  simp only [kernel, f, tab, evPW, ev, M4.f, M4.df, M4.ddf]
  push_cast
  split_ifs <;> first | ring1 | (exfalso; linarith)

theorem repr_df (q : ℝ) : kernel.df q = evPW (dPW tab.t) [] q := by
  simp only [kernel, df, tab, dPW, List.map, pD, padd, pX, evPW, ev, M4.f, M4.df, M4.ddf]
  push_cast
  split_ifs <;> first | ring1 | (exfalso; linarith)

theorem repr_ddf (q : ℝ) : kernel.ddf q = evPW (dPW (dPW tab.t)) [] q := by
  simp only [kernel, ddf, tab, dPW, List.map, pD, padd, pX, evPW, ev, M4.f, M4.df, M4.ddf]
  push_cast
  split_ifs <;> first | ring1 | (exfalso; linarith)

theorem repr_phi (q : ℝ) (hq : 0 < q) :
    kernel.phi_tilde_3d q = Real.pi * evPW tab.ph [-tab.c] q / q := by
  simp only [kernel, phi_tilde_3d, tab, evPW, ev]
  push_cast
  split_ifs <;> first | (field_simp; ring1) | (exfalso; linarith)

theorem repr_phi' (q : ℝ) (hq : 0 < q) :
    kernel.phi_tilde_3d_prime q = Real.pi * evPW (mapPW qp tab.ph) [tab.c] q / q ^ 2 := by
  simp only [kernel, phi_tilde_3d_prime, tab, mapPW, List.map, qp, psc, pD, padd, pX, evPW, ev]
  push_cast
  split_ifs <;> first | (field_simp; ring1) | (exfalso; linarith)

theorem repr : Repr kernel tab where
  hR := by norm_num [kernel, Rkern, tab]
  h1 := by norm_num [kernel, norm_1d, tab]
  h2 := by
    have := Real.pi_ne_zero
    simp only [kernel, norm_2d, tab]; push_cast; field_simp; try norm_num
  h3 := by
    have := Real.pi_ne_zero
    simp only [kernel, norm_3d, tab]; push_cast; field_simp; try norm_num
  hf := repr_f
  hdf := repr_df
  hddf := repr_ddf
  hphi := repr_phi
  hphi' := repr_phi'
  hphi0 := by norm_num [kernel, phi_tilde_3d_prime]

end M4Shift8

namespace M4Shift16

/-- Tables of the kernel `M4Shift16` (checked against the model below). -/
def tab : Tab :=
  { R := 2, n1 := 32/123, n2 := 2560/9457, n3 := 4096/38785,
    t := [(15/8, [1]),
      (31/16, [-21599, 33840, -17664, 3072]),
      (2, [8192, -12288, 6144, -1024])],
    ph := [(15/8, [0, -9457/1280, 0, 2/3]),
      (31/16, [-2581875/256, 20240543/1280, 0, -43198/3, 11280, -17664/5, 2048/5]),
      (2, [267853681/61440, -32768/5, 0, 16384/3, -4096, 6144/5, -2048/15])],
    c := 38785/4096 }

theorem tab_ok : tab.Ok := by constructor <;> decide +kernel

theorem repr_f (q : ℝ) : kernel.f q = evPW tab.t [] q := by
  simp only [kernel, f, tab, evPW, ev, M4.f, M4.df, M4.ddf]
  push_cast
  split_ifs <;> first | ring1 | (exfalso; linarith)

theorem repr_df (q : ℝ) : kernel.df q = evPW (dPW tab.t) [] q := by
  simp only [kernel, df, tab, dPW, List.map, pD, padd, pX, evPW, ev, M4.f, M4.df, M4.ddf]
  push_cast
  split_ifs <;> first | ring1 | (exfalso; linarith)

theorem repr_ddf (q : ℝ) : kernel.ddf q = evPW (dPW (dPW tab.t)) [] q := by
  simp only [kernel, ddf, tab, dPW, List.map, pD, padd, pX, evPW, ev, M4.f, M4.df, M4.ddf]
  push_cast
  split_ifs <;> first | ring1 | (exfalso; linarith)

theorem repr_phi (q : ℝ) (hq : 0 < q) :
    kernel.phi_tilde_3d q = Real.pi * evPW tab.ph [-tab.c] q / q := by
  simp only [kernel, phi_tilde_3d, tab, evPW, ev]
  push_cast
  split_ifs <;> first | (field_simp; ring1) | (exfalso; linarith)

theorem repr_phi' (q : ℝ) (hq : 0 < q) :
    kernel.phi_tilde_3d_prime q = Real.pi * evPW (mapPW qp tab.ph) [tab.c] q / q ^ 2 := by
  simp only [kernel, phi_tilde_3d_prime, tab, mapPW, List.map, qp, psc, pD, padd, pX, evPW, ev]
  push_cast
  split_ifs <;> first | (field_simp; ring1) | (exfalso; linarith)

theorem repr : Repr kernel tab where
  hR := by norm_num [kernel, Rkern, tab]
  h1 := by norm_num [kernel, norm_1d, tab]
  h2 := by
    have := Real.pi_ne_zero
    simp only [kernel, norm_2d, tab]; push_cast; field_simp; try norm_num
  h3 := by
    have := Real.pi_ne_zero
    simp only [kernel, norm_3d, tab]; push_cast; field_simp; try norm_num
  hf := repr_f
  hdf := repr_df
  hddf := repr_ddf
  hphi := repr_phi
  hphi' := repr_phi'
  hphi0 := by norm_num [kernel, phi_tilde_3d_prime]

end M4Shift16

end Shamrock.Kern
