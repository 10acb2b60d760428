import Verif.Proof.SphKernel
import Mathlib.Tactic.NormNum

/-!
# Tables of the kernels (generated by tools/gen_kern_tab.py, checked by the kernel)
-/

namespace Shamrock.Kern

namespace M8

/-- Tables of the kernel `M8` (checked against the model below). -/
def tab : Tab :=
  { R := 4, n1 := 1/5040, n2 := 9/29740, n3 := 1/6720,
    t := [(1, [2416, 0, -1680, 0, 560, 0, -140, 35]),
      (2, [2472, -392, -504, -1960, 2520, -1176, 252, -21]),
      (3, [-1112, 12152, -19320, 13720, -5320, 1176, -140, 7]),
      (4, [16384, -28672, 21504, -8960, 2240, -336, 28, -1])],
    ph := [(1, [0, -59480/9, 0, 4832/3, 0, -336, 0, 160/3, 0, -70/9, 14/9]),
      (2, [28/45, -6612, 0, 1648, -392/3, -504/5, -784/3, 240, -84, 14, -14/15]),
      (3, [-14308/45, -52340/9, 0, -2224/3, 12152/3, -3864, 5488/3, -1520/3, 84, -70/9, 14/45]),
      (4, [221888/45, -131072/9, 0, 32768/3, -28672/3, 21504/5, -3584/3, 640/3, -24, 14/9,
          -2/45])],
    c := 6720 }

theorem tab_ok : tab.Ok := by constructor <;> decide +kernel

theorem repr_f (q : ℝ) : kernel.f q = evPW tab.t [] q := by
  simp only [kernel, f, tab, evPW, ev]
  push_cast
  split_ifs <;> first | ring1 | (exfalso; linarith)

theorem repr_df (q : ℝ) : kernel.df q = evPW (dPW tab.t) [] q := by
  simp only [kernel, df, tab, dPW, List.map, pD, padd, pX, evPW, ev]
  push_cast
  split_ifs <;> first | ring1 | (exfalso; linarith)

theorem repr_ddf (q : ℝ) : kernel.ddf q = evPW (dPW (dPW tab.t)) [] q := by
  simp only [kernel, ddf, tab, dPW, List.map, pD, padd, pX, evPW, ev]
  push_cast
  split_ifs <;> first | ring1 | (exfalso; linarith)

theorem repr_phi (q : ℝ) (hq : 0 < q) :
    kernel.phi_tilde_3d q = Real.pi * evPW tab.ph [-tab.c] q / q := by
  simp only [kernel, phi_tilde_3d, tab, evPW, ev]
  push_cast
  split_ifs <;> first | (field_simp; ring1) | (exfalso; linarith)

theorem repr_phi' (q : ℝ) (hq : 0 < q) :
    kernel.phi_tilde_3d_prime q = Real.pi * evPW (mapPW qp tab.ph) [tab.c] q / q ^ 2 := by
  simp only [kernel, phi_tilde_3d_prime, tab, mapPW, List.map, qp, psc, pD, padd, pX, evPW, ev]
  push_cast
  split_ifs <;> first | (field_simp; ring1) | (exfalso; linarith)

theorem repr : Repr kernel tab where
  hR := by norm_num [kernel, Rkern, tab]
  h1 := by norm_num [kernel, norm_1d, tab]
  h2 := by
    have := Real.pi_ne_zero
    simp only [kernel, norm_2d, tab]; push_cast; field_simp; try norm_num
  h3 := by
    have := Real.pi_ne_zero
    simp only [kernel, norm_3d, tab]; push_cast; field_simp; try norm_num
  hf := repr_f
  hdf := repr_df
  hddf := repr_ddf
  hphi := repr_phi
  hphi' := repr_phi'
  hphi0 := by norm_num [kernel, phi_tilde_3d_prime]

end M8

namespace M9

/-- Tables of the kernel `M9` (checked against the model below). -/
def tab : Tab :=
  { R := 9/2, n1 := 1/40320, n2 := 512/14345663, n3 := 1/60480,
    t := [(1/2, [2337507/128, 0, -91035/8, 0, 13545/4, 0, -630, 0, 70]),
      (3/2, [584361/32, 63/8, -22869/2, 441/2, 2835, 882, -1512, 504, -56]),
      (5/2, [1306503/64, -91791/8, 61425/4, -71001/2, 65205/2, -14994, 3780, -504, 28]),
      (7/2, [-1104561/32, 1314459/8, -461475/2, 322749/2, -65835, 16506, -2520, 216, -8]),
      (9/2, [43046721/256, -4782969/16, 3720087/16, -413343/4, 229635/8, -5103, 567, -36, 1])],
    ph := [(1/2, [0, -14345663/256, 0, 779169/64, 0, -18207/8, 0, 645/2, 0, -35, 0, 28/11]),
      (3/2, [-7/14080, -17932077/320, 0, 194787/16, 21/8, -22869/10, 147/5, 270, 63, -84, 112/5,
          -112/55]),
      (5/2, [826679/14080, -7200387/128, 0, 435501/32, -30597/8, 12285/4, -23667/5, 3105, -1071,
          210, -112/5, 56/55]),
      (7/2, [-96829571/14080, -2623631/64, 0, -368187/16, 438153/8, -92295/2, 107583/5, -6270,
          1179, -140, 48/5, -16/55]),
      (9/2, [1783667601/28160, -387420489/2560, 0, 14348907/128, -1594323/16, 3720087/80,
          -137781/10, 10935/4, -729/2, 63/2, -8/5, 2/55])],
    c := 60480 }

theorem tab_ok : tab.Ok := by constructor <;> decide +kernel

theorem repr_f (q : ℝ) : kernel.f q = evPW tab.t [] q := by
  simp only [kernel, f, tab, evPW, ev]
  push_cast
  split_ifs <;> first | ring1 | (exfalso; linarith)

theorem repr_df (q : ℝ) : kernel.df q = evPW (dPW tab.t) [] q := by
  simp only [kernel, df, tab, dPW, List.map, pD, padd, pX, evPW, ev]
  push_cast
  split_ifs <;> first | ring1 | (exfalso; linarith)

theorem repr_ddf (q : ℝ) : kernel.ddf q = evPW (dPW (dPW tab.t)) [] q := by
  simp only [kernel, ddf, tab, dPW, List.map, pD, padd, pX, evPW, ev]
  push_cast
  split_ifs <;> first | ring1 | (exfalso; linarith)

theorem repr_phi (q : ℝ) (hq : 0 < q) :
    kernel.phi_tilde_3d q = Real.pi * evPW tab.ph [-tab.c] q / q := by
  simp only [kernel, phi_tilde_3d, tab, evPW, ev]
  push_cast
  split_ifs <;> first | (field_simp; ring1) | (exfalso; linarith)

theorem repr_phi' (q : ℝ) (hq : 0 < q) :
    kernel.phi_tilde_3d_prime q = Real.pi * evPW (mapPW qp tab.ph) [tab.c] q / q ^ 2 := by
  simp only [kernel, phi_tilde_3d_prime, tab, mapPW, List.map, qp, psc, pD, padd, pX, evPW, ev]
  push_cast
  split_ifs <;> first | (field_simp; ring1) | (exfalso; linarith)

theorem repr : Repr kernel tab where
  hR := by norm_num [kernel, Rkern, tab]
  h1 := by norm_num [kernel, norm_1d, tab]
  h2 := by
    have := Real.pi_ne_zero
    simp only [kernel, norm_2d, tab]; push_cast; field_simp; try norm_num
  h3 := by
    have := Real.pi_ne_zero
    simp only [kernel, norm_3d, tab]; push_cast; field_simp; try norm_num
  hf := repr_f
  hdf := repr_df
  hddf := repr_ddf
  hphi := repr_phi
  hphi' := repr_phi'
  hphi0 := by norm_num [kernel, phi_tilde_3d_prime]

end M9

namespace M10

/-- Tables of the kernel `M10` (checked against the model below). -/
def tab : Tab :=
  { R := 5, n1 := 1/362880, n2 := 11/2922230, n3 := 1/604800,
    t := [(1, [156190, 0, -88200, 0, 23940, 0, -4200, 0, 630, -126]),
      (2, [155980, 1890, -95760, 17640, -2520, 26460, -21840, 7560, -1260, 84]),
      (3, [217420, -274590, 457200, -627480, 481320, -215460, 58800, -9720, 900, -36]),
      (4, [-668315, 2382615, -3085740, 2128140, -896490, 243810, -43260, 4860, -315, 9]),
      (5, [1953125, -3515625, 2812500, -1312500, 393750, -78750, 10500, -900, 45, -1])],
    ph := [(1, [0, -5844460/11, 0, 312380/3, 0, -17640, 0, 2280, 0, -700/3, 0, 252/11, -42/11]),
      (2, [-14/11, -5844376/11, 0, 311960/3, 630, -19152, 2352, -240, 1890, -3640/3, 336,
          -504/11, 28/11]),
      (3, [32754/11, -5942680/11, 0, 434840/3, -91530, 91440, -83664, 45840, -15390, 9800/3,
          -432, 360/11, -12/11]),
      (4, [-1561569/11, -2754034/11, 0, -1336630/3, 794205, -617148, 283752, -85380, 17415,
          -7210/3, 216, -126/11, 3/11]),
      (5, [28869725/33, -19531250/11, 0, 3906250/3, -1171875, 562500, -175000, 37500, -5625,
          1750/3, -40, 18/11, -1/33])],
    c := 604800 }

theorem tab_ok : tab.Ok := by constructor <;> decide +kernel

theorem repr_f (q : ℝ) : kernel.f q = evPW tab.t [] q := by
  simp only [kernel, f, tab, evPW, ev]
  push_cast
  split_ifs <;> first | ring1 | (exfalso; linarith)

theorem repr_df (q : ℝ) : kernel.df q = evPW (dPW tab.t) [] q := by
  simp only [kernel, df, tab, dPW, List.map, pD, padd, pX, evPW, ev]
  push_cast
  split_ifs <;> first | ring1 | (exfalso; linarith)

theorem repr_ddf (q : ℝ) : kernel.ddf q = evPW (dPW (dPW tab.t)) [] q := by
  simp only [kernel, ddf, tab, dPW, List.map, pD, padd, pX, evPW, ev]
  push_cast
  split_ifs <;> first | ring1 | (exfalso; linarith)

theorem repr_phi (q : ℝ) (hq : 0 < q) :
    kernel.phi_tilde_3d q = Real.pi * evPW tab.ph [-tab.c] q / q := by
  simp only [kernel, phi_tilde_3d, tab, evPW, ev]
  push_cast
  split_ifs <;> first | (field_simp; ring1) | (exfalso; linarith)

theorem repr_phi' (q : ℝ) (hq : 0 < q) :
    kernel.phi_tilde_3d_prime q = Real.pi * evPW (mapPW qp tab.ph) [tab.c] q / q ^ 2 := by
  simp only [kernel, phi_tilde_3d_prime, tab, mapPW, List.map, qp, psc, pD, padd, pX, evPW, ev]
  push_cast
  split_ifs <;> first | (field_simp; ring1) | (exfalso; linarith)

theorem repr : Repr kernel tab where
  hR := by norm_num [kernel, Rkern, tab]
  h1 := by norm_num [kernel, norm_1d, tab]
  h2 := by
    have := Real.pi_ne_zero
    simp only [kernel, norm_2d, tab]; push_cast; field_simp; try norm_num
  h3 := by
    have := Real.pi_ne_zero
    simp only [kernel, norm_3d, tab]; push_cast; field_simp; try norm_num
  hf := repr_f
  hdf := repr_df
  hddf := repr_ddf
  hphi := repr_phi
  hphi' := repr_phi'
  hphi0 := by norm_num [kernel, phi_tilde_3d_prime]

end M10

end Shamrock.Kern
