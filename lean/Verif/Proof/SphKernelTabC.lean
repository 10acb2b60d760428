import Verif.Proof.SphKernel
import Mathlib.Tactic.NormNum

/-!
# Tables of the kernels (generated by tools/gen_kern_tab.py, checked by the kernel)
-/

namespace Shamrock.Kern

namespace C2

/-- Tables of the kernel `C2` (checked against the model below). -/
def tab : Tab :=
  { R := 2, n1 := 3/4, n2 := 7/4, n3 := 21/16,
    t := [(2, [1, 0, -5/2, 5/2, -15/16, 1/8])],
    ph := [(2, [0, -8/7, 0, 2/3, 0, -1/2, 1/3, -5/56, 1/112])],
    c := 16/21 }

theorem tab_ok : tab.Ok := by constructor <;> decide +kernel

theorem repr_f (q : ℝ) : kernel.f q = evPW tab.t [] q := by
  simp only [kernel, f, tab, evPW, ev]
  push_cast
  split_ifs <;> first | ring1 | (exfalso; linarith)

theorem repr_df (q : ℝ) : kernel.df q = evPW (dPW tab.t) [] q := by
  simp only [kernel, df, tab, dPW, List.map, pD, padd, pX, evPW, ev]
  push_cast
  split_ifs <;> first | ring1 | (exfalso; linarith)

theorem repr_ddf (q : ℝ) : kernel.ddf q = evPW (dPW (dPW tab.t)) [] q := by
  simp only [kernel, ddf, tab, dPW, List.map, pD, padd, pX, evPW, ev]
  push_cast
  split_ifs <;> first | ring1 | (exfalso; linarith)

theorem repr_phi (q : ℝ) (hq : 0 < q) :
    kernel.phi_tilde_3d q = Real.pi * evPW tab.ph [-tab.c] q / q := by
  simp only [kernel, phi_tilde_3d, tab, evPW, ev]
  push_cast
  split_ifs <;> first | (field_simp; ring1) | (exfalso; linarith)

theorem repr_phi' (q : ℝ) (hq : 0 < q) :
    kernel.phi_tilde_3d_prime q = Real.pi * evPW (mapPW qp tab.ph) [tab.c] q / q ^ 2 := by
  simp only [kernel, phi_tilde_3d_prime, tab, mapPW, List.map, qp, psc, pD, padd, pX, evPW, ev]
  push_cast
  split_ifs <;> first | (field_simp; ring1) | (exfalso; linarith)

theorem repr : Repr kernel tab where
  hR := by norm_num [kernel, Rkern, tab]
  h1 := by norm_num [kernel, norm_1d, tab]
  h2 := by
    have := Real.pi_ne_zero
    simp only [kernel, norm_2d, tab]; push_cast; field_simp; try norm_num
  h3 := by
    have := Real.pi_ne_zero
    simp only [kernel, norm_3d, tab]; push_cast; field_simp; try norm_num
  hf := repr_f
  hdf := repr_df
  hddf := repr_ddf
  hphi := repr_phi
  hphi' := repr_phi'
  hphi0 := by norm_num [kernel, phi_tilde_3d_prime]

end C2

namespace C4

/-- Tables of the kernel `C4` (checked against the model below). -/
def tab : Tab :=
  { R := 2, n1 := 27/32, n2 := 9/4, n3 := 495/256,
    t := [(2, [1, 0, -7/3, 0, 35/8, -14/3, 35/16, -1/2, 35/768])],
    ph := [(2, [0, -8/9, 0, 2/3, 0, -7/15, 0, 5/12, -1/3, 35/288, -1/45, 7/4224])],
    c := 256/495 }

theorem tab_ok : tab.Ok := by constructor <;> decide +kernel

theorem repr_f (q : ℝ) : kernel.f q = evPW tab.t [] q := by
  simp only [kernel, f, tab, evPW, ev]
  push_cast
  split_ifs <;> first | ring1 | (exfalso; linarith)

theorem repr_df (q : ℝ) : kernel.df q = evPW (dPW tab.t) [] q := by
  simp only [kernel, df, tab, dPW, List.map, pD, padd, pX, evPW, ev]
  push_cast
  split_ifs <;> first | ring1 | (exfalso; linarith)

theorem repr_ddf (q : ℝ) : kernel.ddf q = evPW (dPW (dPW tab.t)) [] q := by
  simp only [kernel, ddf, tab, dPW, List.map, pD, padd, pX, evPW, ev]
  push_cast
  split_ifs <;> first | ring1 | (exfalso; linarith)

theorem repr_phi (q : ℝ) (hq : 0 < q) :
    kernel.phi_tilde_3d q = Real.pi * evPW tab.ph [-tab.c] q / q := by
  simp only [kernel, phi_tilde_3d, tab, evPW, ev]
  push_cast
  split_ifs <;> first | (field_simp; ring1) | (exfalso; linarith)

theorem repr_phi' (q : ℝ) (hq : 0 < q) :
    kernel.phi_tilde_3d_prime q = Real.pi * evPW (mapPW qp tab.ph) [tab.c] q / q ^ 2 := by
  simp only [kernel, phi_tilde_3d_prime, tab, mapPW, List.map, qp, psc, pD, padd, pX, evPW, ev]
  push_cast
  split_ifs <;> first | (field_simp; ring1) | (exfalso; linarith)

theorem repr : Repr kernel tab where
  hR := by norm_num [kernel, Rkern, tab]
  h1 := by norm_num [kernel, norm_1d, tab]
  h2 := by
    have := Real.pi_ne_zero
    simp only [kernel, norm_2d, tab]; push_cast; field_simp; try norm_num
  h3 := by
    have := Real.pi_ne_zero
    simp only [kernel, norm_3d, tab]; push_cast; field_simp; try norm_num
  hf := repr_f
  hdf := repr_df
  hddf := repr_ddf
  hphi := repr_phi
  hphi' := repr_phi'
  hphi0 := by norm_num [kernel, phi_tilde_3d_prime]

end C4

namespace C6

/-- Tables of the kernel `C6` (checked against the model below). -/
def tab : Tab :=
  { R := 2, n1 := 15/16, n2 := 39/14, n3 := 1365/512,
    t := [(2, [1, 0, -11/4, 0, 33/8, 0, -231/32, 33/4, -1155/256, 11/8, -231/1024, 1/64])],
    ph := [(2, [0, -28/39, 0, 2/3, 0, -11/20, 0, 11/28, 0, -77/192, 11/30, -21/128, 1/24,
        -77/13312, 1/2912])],
    c := 512/1365 }

theorem tab_ok : tab.Ok := by constructor <;> decide +kernel

theorem repr_f (q : ℝ) : kernel.f q = evPW tab.t [] q := by
  simp only [kernel, f, tab, evPW, ev]
  push_cast
  split_ifs <;> first | ring1 | (exfalso; linarith)

theorem repr_df (q : ℝ) : kernel.df q = evPW (dPW tab.t) [] q := by
  simp only [kernel, df, tab, dPW, List.map, pD, padd, pX, evPW, ev]
  push_cast
  split_ifs <;> first | ring1 | (exfalso; linarith)

theorem repr_ddf (q : ℝ) : kernel.ddf q = evPW (dPW (dPW tab.t)) [] q := by
  simp only [kernel, ddf, tab, dPW, List.map, pD, padd, pX, evPW, ev]
  push_cast
  split_ifs <;> first | ring1 | (exfalso; linarith)

theorem repr_phi (q : ℝ) (hq : 0 < q) :
    kernel.phi_tilde_3d q = Real.pi * evPW tab.ph [-tab.c] q / q := by
  simp only [kernel, phi_tilde_3d, tab, evPW, ev]
  push_cast
  split_ifs <;> first | (field_simp; ring1) | (exfalso; linarith)

theorem repr_phi' (q : ℝ) (hq : 0 < q) :
    kernel.phi_tilde_3d_prime q = Real.pi * evPW (mapPW qp tab.ph) [tab.c] q / q ^ 2 := by
  simp only [kernel, phi_tilde_3d_prime, tab, mapPW, List.map, qp, psc, pD, padd, pX, evPW, ev]
  push_cast
  split_ifs <;> first | (field_simp; ring1) | (exfalso; linarith)

theorem repr : Repr kernel tab where
  hR := by norm_num [kernel, Rkern, tab]
  h1 := by norm_num [kernel, norm_1d, tab]
  h2 := by
    have := Real.pi_ne_zero
    simp only [kernel, norm_2d, tab]; push_cast; field_simp; try norm_num
  h3 := by
    have := Real.pi_ne_zero
    simp only [kernel, norm_3d, tab]; push_cast; field_simp; try norm_num
  hf := repr_f
  hdf := repr_df
  hddf := repr_ddf
  hphi := repr_phi
  hphi' := repr_phi'
  hphi0 := by norm_num [kernel, phi_tilde_3d_prime]

end C6

namespace M4DoubleHump

/-- Tables of the kernel `M4DoubleHump` (checked against the model below). -/
def tab : Tab :=
  { R := 2, n1 := 2, n2 := 70/31, n3 := 10/9,
    t := [(1, [0, 0, 1, 0, -3/2, 3/4]),
      (2, [0, 0, 2, -3, 3/2, -1/4])],
    ph := [(1, [0, -31/35, 0, 0, 0, 1/5, 0, -1/7, 3/56]),
      (2, [1/70, -32/35, 0, 0, 0, 2/5, -2/5, 1/7, -1/56])],
    c := 9/10 }

theorem tab_ok : tab.Ok := by constructor <;> decide +kernel

theorem repr_f (q : ℝ) : kernel.f q = evPW tab.t [] q := by
  simp only [kernel, f, tab, evPW, ev, M4.f, M4.df, M4.ddf]
  push_cast
  split_ifs <;> first | ring1 | (exfalso; linarith)

theorem repr_df (q : ℝ) : kernel.df q = evPW (dPW tab.t) [] q := by
  simp only [kernel, df, tab, dPW, List.map, pD, padd, pX, evPW, ev, M4.f, M4.df, M4.ddf]
  push_cast
  split_ifs <;> first | ring1 | (exfalso; linarith)

theorem repr_ddf (q : ℝ) : kernel.ddf q = evPW (dPW (dPW tab.t)) [] q := by
  simp only [kernel, ddf, tab, dPW, List.map, pD, padd, pX, evPW, ev, M4.f, M4.df, M4.ddf]
  push_cast
  split_ifs <;> first | ring1 | (exfalso; linarith)

theorem repr_phi (q : ℝ) (hq : 0 < q) :
    kernel.phi_tilde_3d q = Real.pi * evPW tab.ph [-tab.c] q / q := by
  simp only [kernel, phi_tilde_3d, tab, evPW, ev]
  push_cast
  split_ifs <;> first | (field_simp; ring1) | (exfalso; linarith)

theorem repr_phi' (q : ℝ) (hq : 0 < q) :
    kernel.phi_tilde_3d_prime q = Real.pi * evPW (mapPW qp tab.ph) [tab.c] q / q ^ 2 := by
  simp only [kernel, phi_tilde_3d_prime, tab, mapPW, List.map, qp, psc, pD, padd, pX, evPW, ev]
  push_cast
  split_ifs <;> first | (field_simp; ring1) | (exfalso; linarith)

theorem repr : Repr kernel tab where
  hR := by norm_num [kernel, Rkern, tab]
  h1 := by norm_num [kernel, norm_1d, tab]
  h2 := by
    have := Real.pi_ne_zero
    simp only [kernel, norm_2d, tab]; push_cast; field_simp; try norm_num
  h3 := by
    have := Real.pi_ne_zero
    simp only [kernel, norm_3d, tab]; push_cast; field_simp; try norm_num
  hf := repr_f
  hdf := repr_df
  hddf := repr_ddf
  hphi := repr_phi
  hphi' := repr_phi'
  hphi0 := by norm_num [kernel, phi_tilde_3d_prime]

end M4DoubleHump

namespace M4DoubleHump3

/-- Tables of the kernel `M4DoubleHump3` (checked against the model below). -/
def tab : Tab :=
  { R := 2, n1 := 70/31, n2 := 20/9, n3 := 126/127,
    t := [(1, [0, 0, 0, 1, 0, -3/2, 3/4]),
      (2, [0, 0, 0, 2, -3, 3/2, -1/4])],
    ph := [(1, [0, -9/10, 0, 0, 0, 0, 2/15, 0, -3/28, 1/24]),
      (2, [1/126, -32/35, 0, 0, 0, 0, 4/15, -2/7, 3/28, -1/72])],
    c := 127/126 }

theorem tab_ok : tab.Ok := by constructor <;> decide +kernel

theorem repr_f (q : ℝ) : kernel.f q = evPW tab.t [] q := by
  simp only [kernel, f, tab, evPW, ev, M4.f, M4.df, M4.ddf]
  push_cast
  split_ifs <;> first | ring1 | (exfalso; linarith)

theorem repr_df (q : ℝ) : kernel.df q = evPW (dPW tab.t) [] q := by
  simp only [kernel, df, tab, dPW, List.map, pD, padd, pX, evPW, ev, M4.f, M4.df, M4.ddf]
  push_cast
  split_ifs <;> first | ring1 | (exfalso; linarith)

theorem repr_ddf (q : ℝ) : kernel.ddf q = evPW (dPW (dPW tab.t)) [] q := by
  simp only [kernel, ddf, tab, dPW, List.map, pD, padd, pX, evPW, ev, M4.f, M4.df, M4.ddf]
  push_cast
  split_ifs <;> first | ring1 | (exfalso; linarith)

theorem repr_phi (q : ℝ) (hq : 0 < q) :
    kernel.phi_tilde_3d q = Real.pi * evPW tab.ph [-tab.c] q / q := by
  simp only [kernel, phi_tilde_3d, tab, evPW, ev]
  push_cast
  split_ifs <;> first | (field_simp; ring1) | (exfalso; linarith)

theorem repr_phi' (q : ℝ) (hq : 0 < q) :
    kernel.phi_tilde_3d_prime q = Real.pi * evPW (mapPW qp tab.ph) [tab.c] q / q ^ 2 := by
  simp only [kernel, phi_tilde_3d_prime, tab, mapPW, List.map, qp, psc, pD, padd, pX, evPW, ev]
  push_cast
  split_ifs <;> first | (field_simp; ring1) | (exfalso; linarith)

theorem repr : Repr kernel tab where
  hR := by norm_num [kernel, Rkern, tab]
  h1 := by norm_num [kernel, norm_1d, tab]
  h2 := by
    have := Real.pi_ne_zero
    simp only [kernel, norm_2d, tab]; push_cast; field_simp; try norm_num
  h3 := by
    have := Real.pi_ne_zero
    simp only [kernel, norm_3d, tab]; push_cast; field_simp; try norm_num
  hf := repr_f
  hdf := repr_df
  hddf := repr_ddf
  hphi := repr_phi
  hphi' := repr_phi'
  hphi0 := by norm_num [kernel, phi_tilde_3d_prime]

end M4DoubleHump3

namespace M4DoubleHump5

/-- Tables of the kernel `M4DoubleHump5` (checked against the model below). -/
def tab : Tab :=
  { R := 2, n1 := 252/127, n2 := 28/17, n3 := 330/511,
    t := [(1, [0, 0, 0, 0, 0, 1, 0, -3/2, 3/4]),
      (2, [0, 0, 0, 0, 0, 2, -3, 3/2, -1/4])],
    ph := [(1, [0, -17/14, 0, 0, 0, 0, 0, 0, 1/14, 0, -1/15, 3/110]),
      (2, [1/330, -128/105, 0, 0, 0, 0, 0, 0, 1/7, -1/6, 1/15, -1/110])],
    c := 511/330 }

theorem tab_ok : tab.Ok := by constructor <;> decide +kernel

theorem repr_f (q : ℝ) : kernel.f q = evPW tab.t [] q := by
  simp only [kernel, f, tab, evPW, ev, M4.f, M4.df, M4.ddf]
  push_cast
  split_ifs <;> first | ring1 | (exfalso; linarith)

theorem repr_df (q : ℝ) : kernel.df q = evPW (dPW tab.t) [] q := by
  simp only [kernel, df, tab, dPW, List.map, pD, padd, pX, evPW, ev, M4.f, M4.df, M4.ddf]
  push_cast
  split_ifs <;> first | ring1 | (exfalso; linarith)

theorem repr_ddf (q : ℝ) : kernel.ddf q = evPW (dPW (dPW tab.t)) [] q := by
  simp only [kernel, ddf, tab, dPW, List.map, pD, padd, pX, evPW, ev, M4.f, M4.df, M4.ddf]
  push_cast
  split_ifs <;> first | ring1 | (exfalso; linarith)

theorem repr_phi (q : ℝ) (hq : 0 < q) :
    kernel.phi_tilde_3d q = Real.pi * evPW tab.ph [-tab.c] q / q := by
  simp only [kernel, phi_tilde_3d, tab, evPW, ev]
  push_cast
  split_ifs <;> first | (field_simp; ring1) | (exfalso; linarith)

theorem repr_phi' (q : ℝ) (hq : 0 < q) :
    kernel.phi_tilde_3d_prime q = Real.pi * evPW (mapPW qp tab.ph) [tab.c] q / q ^ 2 := by
  simp only [kernel, phi_tilde_3d_prime, tab, mapPW, List.map, qp, psc, pD, padd, pX, evPW, ev]
  push_cast
  split_ifs <;> first | (field_simp; ring1) | (exfalso; linarith)

theorem repr : Repr kernel tab where
  hR := by norm_num [kernel, Rkern, tab]
  h1 := by norm_num [kernel, norm_1d, tab]
  h2 := by
    have := Real.pi_ne_zero
    simp only [kernel, norm_2d, tab]; push_cast; field_simp; try norm_num
  h3 := by
    have := Real.pi_ne_zero
    simp only [kernel, norm_3d, tab]; push_cast; field_simp; try norm_num
  hf := repr_f
  hdf := repr_df
  hddf := repr_ddf
  hphi := repr_phi
  hphi' := repr_phi'
  hphi0 := by norm_num [kernel, phi_tilde_3d_prime]

end M4DoubleHump5

namespace M4DoubleHump7

/-- Tables of the kernel `M4DoubleHump7` (checked against the model below). -/
def tab : Tab :=
  { R := 2, n1 := 660/511, n2 := 30/31, n3 := 715/2047,
    t := [(1, [0, 0, 0, 0, 0, 0, 0, 1, 0, -3/2, 3/4]),
      (2, [0, 0, 0, 0, 0, 0, 0, 2, -3, 3/2, -1/4])],
    ph := [(1, [0, -31/15, 0, 0, 0, 0, 0, 0, 0, 0, 2/45, 0, -1/22, 1/52]),
      (2, [1/715, -1024/495, 0, 0, 0, 0, 0, 0, 0, 0, 4/45, -6/55, 1/22, -1/156])],
    c := 2047/715 }

theorem tab_ok : tab.Ok := by constructor <;> decide +kernel

theorem repr_f (q : ℝ) : kernel.f q = evPW tab.t [] q := by
  simp only [kernel, f, tab, evPW, ev, M4.f, M4.df, M4.ddf]
  push_cast
  split_ifs <;> first | ring1 | (exfalso; linarith)

theorem repr_df (q : ℝ) : kernel.df q = evPW (dPW tab.t) [] q := by
  simp only [kernel, df, tab, dPW, List.map, pD, padd, pX, evPW, ev, M4.f, M4.df, M4.ddf]
  push_cast
  split_ifs <;> first | ring1 | (exfalso; linarith)

theorem repr_ddf (q : ℝ) : kernel.ddf q = evPW (dPW (dPW tab.t)) [] q := by
  simp only [kernel, ddf, tab, dPW, List.map, pD, padd, pX, evPW, ev, M4.f, M4.df, M4.ddf]
  push_cast
  split_ifs <;> first | ring1 | (exfalso; linarith)

theorem repr_phi (q : ℝ) (hq : 0 < q) :
    kernel.phi_tilde_3d q = Real.pi * evPW tab.ph [-tab.c] q / q := by
  simp only [kernel, phi_tilde_3d, tab, evPW, ev]
  push_cast
  split_ifs <;> first | (field_simp; ring1) | (exfalso; linarith)

theorem repr_phi' (q : ℝ) (hq : 0 < q) :
    kernel.phi_tilde_3d_prime q = Real.pi * evPW (mapPW qp tab.ph) [tab.c] q / q ^ 2 := by
  simp only [kernel, phi_tilde_3d_prime, tab, mapPW, List.map, qp, psc, pD, padd, pX, evPW, ev]
  push_cast
  split_ifs <;> first | (field_simp; ring1) | (exfalso; linarith)

theorem repr : Repr kernel tab where
  hR := by norm_num [kernel, Rkern, tab]
  h1 := by norm_num [kernel, norm_1d, tab]
  h2 := by
    have := Real.pi_ne_zero
    simp only [kernel, norm_2d, tab]; push_cast; field_simp; try norm_num
  h3 := by
    have := Real.pi_ne_zero
    simp only [kernel, norm_3d, tab]; push_cast; field_simp; try norm_num
  hf := repr_f
  hdf := repr_df
  hddf := repr_ddf
  hphi := repr_phi
  hphi' := repr_phi'
  hphi0 := by norm_num [kernel, phi_tilde_3d_prime]

end M4DoubleHump7

end Shamrock.Kern
